import Verif.Electric.Lemmas

/-! Lemmas about the links between the buses of the bus view. -/

namespace Verif.Electric

open Verif Verif.Graph
open Verif.CompBuses (Level LevelsOk viewBuses listAll)
open Verif.NetComponents (Snap AnyLink AcLink Joined)

/-- The links of the components: with the HVDC lines for the connected ones, without for the synchronous ones. -/
def Rel (dc : Bool) (s : Snap) : String → String → Prop := if dc then AnyLink s else AcLink s

section levels
variable {levels : List Level} (hl : LevelsOk levels)
include hl

theorem pairs_ok : ∀ l : List (End × End), (∀ p ∈ l, EndOk levels p.1 ∧ EndOk levels p.2) →
    ∃ r, pairs levels l = .ok r ∧ ∀ x y, (x, y) ∈ r ↔ ∃ p ∈ l, viewBus levels p.1 = .ok x ∧ viewBus levels p.2 = .ok y
  | [], _ => ⟨[], rfl, fun x y => by simp⟩
  | (a, b) :: l, h => by
    obtain ⟨ha, hb⟩ := h _ List.mem_cons_self
    obtain ⟨x, hx, _⟩ := viewBus_ok hl ha
    obtain ⟨y, hy, _⟩ := viewBus_ok hl hb
    obtain ⟨r, hr, hm⟩ := pairs_ok l fun p hp => h p (List.mem_cons_of_mem _ hp)
    refine ⟨(x, y) :: r, by simp only [pairs, hx, hy, hr, Out.bind_ok, Out.map], fun x' y' => ?_⟩
    rw [List.mem_cons, hm]
    constructor
    · rintro (e | ⟨p, hp, k⟩)
      · cases e
        exact ⟨_, List.mem_cons_self, hx, hy⟩
      · exact ⟨p, List.mem_cons_of_mem _ hp, k⟩
    · rintro ⟨p, hp, k1, k2⟩
      rcases List.mem_cons.1 hp with rfl | hp
      · left
        rw [hx] at k1
        rw [hy] at k2
        cases Out.ok.inj k1
        cases Out.ok.inj k2
        rfl
      · exact .inr ⟨p, hp, k1, k2⟩

theorem triples_ok : ∀ l : List (End × End × End), (∀ p ∈ l, EndOk levels p.1 ∧ EndOk levels p.2.1 ∧ EndOk levels p.2.2) →
    ∃ r, triples levels l = .ok r ∧ ∀ x y z, (x, y, z) ∈ r ↔ ∃ p ∈ l, viewBus levels p.1 = .ok x ∧ viewBus levels p.2.1 = .ok y ∧ viewBus levels p.2.2 = .ok z
  | [], _ => ⟨[], rfl, fun x y z => by simp⟩
  | (a, b, c) :: l, h => by
    obtain ⟨ha, hb, hc⟩ := h _ List.mem_cons_self
    obtain ⟨x, hx, _⟩ := viewBus_ok hl ha
    obtain ⟨y, hy, _⟩ := viewBus_ok hl hb
    obtain ⟨z, hz, _⟩ := viewBus_ok hl hc
    obtain ⟨r, hr, hm⟩ := triples_ok l fun p hp => h p (List.mem_cons_of_mem _ hp)
    refine ⟨(x, y, z) :: r, by simp only [triples, hx, hy, hz, hr, Out.bind_ok, Out.map], fun x' y' z' => ?_⟩
    rw [List.mem_cons, hm]
    constructor
    · rintro (e | ⟨p, hp, k⟩)
      · cases e
        exact ⟨_, List.mem_cons_self, hx, hy, hz⟩
      · exact ⟨p, List.mem_cons_of_mem _ hp, k⟩
    · rintro ⟨p, hp, k1, k2, k3⟩
      rcases List.mem_cons.1 hp with rfl | hp
      · left
        rw [hx] at k1
        rw [hy] at k2
        rw [hz] at k3
        cases Out.ok.inj k1
        cases Out.ok.inj k2
        cases Out.ok.inj k3
        rfl
      · exact .inr ⟨p, hp, k1, k2, k3⟩

/-- The terminal is connected and on that bus. -/
def At (levels : List Level) (a : End) (i : String) : Prop := a.Live ∧ OnView levels a.spot i

theorem viewBus_some {a : End} (ha : EndOk levels a) {i : String} : viewBus levels a = .ok (some i) ↔ At levels a i := by
  obtain ⟨r, h, hr⟩ := viewBus_ok hl ha
  rw [h]
  exact ⟨fun k => (hr i).1 (Out.ok.inj k), fun k => congrArg Out.ok ((hr i).2 k)⟩

omit hl in
theorem mem_ends {dc : Bool} {e : Equip} {l : List End} : l ∈ ends dc e ↔ (∃ p ∈ e.lines, l = [p.1, p.2]) ∨ (∃ p ∈ e.trafos, l = [p.1, p.2]) ∨
    (∃ p ∈ e.three, l = [p.1, p.2.1, p.2.2]) ∨ dc = true ∧ ∃ p ∈ e.hvdc, l = [p.1, p.2] := by
  unfold ends
  cases dc <;> simp [List.mem_append, eq_comm, or_assoc]

omit hl in
theorem ends_sub {dc : Bool} {e : Equip} {l : List End} (h : l ∈ ends dc e) : l ∈ ends true e := by
  rw [mem_ends] at h ⊢
  rcases h with h | h | h | ⟨_, h⟩
  · exact .inl h
  · exact .inr (.inl h)
  · exact .inr (.inr (.inl h))
  · exact .inr (.inr (.inr ⟨rfl, h⟩))

theorem links_ok {e : Equip} (he : EquipOk levels e) : ∃ s, links levels e = .ok s ∧ ∀ dc,
    (∀ i j, Rel dc s i j → ∃ l ∈ ends dc e, ∃ a ∈ l, ∃ b ∈ l, At levels a i ∧ At levels b j) ∧
    ∀ l ∈ ends dc e, ∀ a ∈ l, ∀ b ∈ l, ∀ i j, At levels a i → At levels b j → i = j ∨ Rel dc s i j ∨ Rel dc s j i := by
  have hE : ∀ l ∈ ends true e, ∀ a ∈ l, EndOk levels a := he.each
  have e1 : ∀ p ∈ e.lines, EndOk levels p.1 ∧ EndOk levels p.2 := fun p hp =>
    have := hE _ (mem_ends.2 (.inl ⟨p, hp, rfl⟩))
    ⟨this _ (by simp), this _ (by simp)⟩
  have e2 : ∀ p ∈ e.trafos, EndOk levels p.1 ∧ EndOk levels p.2 := fun p hp =>
    have := hE _ (mem_ends.2 (.inr (.inl ⟨p, hp, rfl⟩)))
    ⟨this _ (by simp), this _ (by simp)⟩
  have e3 : ∀ p ∈ e.three, EndOk levels p.1 ∧ EndOk levels p.2.1 ∧ EndOk levels p.2.2 := fun p hp =>
    have := hE _ (mem_ends.2 (.inr (.inr (.inl ⟨p, hp, rfl⟩))))
    ⟨this _ (by simp), this _ (by simp), this _ (by simp)⟩
  have e4 : ∀ p ∈ e.hvdc, EndOk levels p.1 ∧ EndOk levels p.2 := fun p hp =>
    have := hE _ (mem_ends.2 (.inr (.inr (.inr ⟨rfl, p, hp, rfl⟩))))
    ⟨this _ (by simp), this _ (by simp)⟩
  obtain ⟨r1, h1, m1⟩ := pairs_ok hl _ e1
  obtain ⟨r2, h2, m2⟩ := pairs_ok hl _ e2
  obtain ⟨r3, h3, m3⟩ := triples_ok hl _ e3
  obtain ⟨r4, h4, m4⟩ := pairs_ok hl _ e4
  refine ⟨⟨[], r1, r2, r3, r4⟩, by simp only [links, h1, h2, h3, h4, Out.bind_ok, Out.map], fun dc => ⟨?_, ?_⟩⟩
  · have ac : ∀ i j, AcLink ⟨[], r1, r2, r3, r4⟩ i j → ∃ l ∈ ends dc e, ∃ a ∈ l, ∃ b ∈ l, At levels a i ∧ At levels b j := by
      intro i j h
      rcases h with h | h | h | h | h
      · obtain ⟨p, hp, k1, k2⟩ := (m1 _ _).1 h
        exact ⟨_, mem_ends.2 (.inl ⟨p, hp, rfl⟩), p.1, by simp, p.2, by simp, (viewBus_some hl (e1 p hp).1).1 k1, (viewBus_some hl (e1 p hp).2).1 k2⟩
      · obtain ⟨p, hp, k1, k2⟩ := (m2 _ _).1 h
        exact ⟨_, mem_ends.2 (.inr (.inl ⟨p, hp, rfl⟩)), p.1, by simp, p.2, by simp, (viewBus_some hl (e2 p hp).1).1 k1, (viewBus_some hl (e2 p hp).2).1 k2⟩
      · obtain ⟨p, hp, k1, k2, k3⟩ := (m3 _ _ _).1 h
        exact ⟨_, mem_ends.2 (.inr (.inr (.inl ⟨p, hp, rfl⟩))), p.1, by simp, p.2.1, by simp, (viewBus_some hl (e3 p hp).1).1 k1, (viewBus_some hl (e3 p hp).2.1).1 k2⟩
      · obtain ⟨p, hp, k1, k2, k3⟩ := (m3 _ _ _).1 h
        exact ⟨_, mem_ends.2 (.inr (.inr (.inl ⟨p, hp, rfl⟩))), p.1, by simp, p.2.2, by simp, (viewBus_some hl (e3 p hp).1).1 k1, (viewBus_some hl (e3 p hp).2.2).1 k3⟩
      · obtain ⟨p, hp, k1, k2, k3⟩ := (m3 _ _ _).1 h
        exact ⟨_, mem_ends.2 (.inr (.inr (.inl ⟨p, hp, rfl⟩))), p.2.1, by simp, p.2.2, by simp, (viewBus_some hl (e3 p hp).2.1).1 k2, (viewBus_some hl (e3 p hp).2.2).1 k3⟩
    intro i j h
    cases dc with
    | false => exact ac i j h
    | true =>
      rcases h with h | h
      · exact ac i j h
      · obtain ⟨p, hp, k1, k2⟩ := (m4 _ _).1 h
        exact ⟨_, mem_ends.2 (.inr (.inr (.inr ⟨rfl, p, hp, rfl⟩))), p.1, by simp, p.2, by simp, (viewBus_some hl (e4 p hp).1).1 k1, (viewBus_some hl (e4 p hp).2).1 k2⟩
  · have ac : ∀ i j, AcLink ⟨[], r1, r2, r3, r4⟩ i j → Rel dc ⟨[], r1, r2, r3, r4⟩ i j := by
      intro i j h
      cases dc with
      | false => exact h
      | true => exact .ac h
    intro l hlm a ha b hb i j hi hj
    have self : a = b → i = j := fun e => onView_unique hl hi.2 (e ▸ hj.2)
    rcases mem_ends.1 hlm with ⟨p, hp, rfl⟩ | ⟨p, hp, rfl⟩ | ⟨p, hp, rfl⟩ | ⟨rfl, p, hp, rfl⟩
    · simp only [List.mem_cons, List.not_mem_nil, or_false] at ha hb
      rcases ha with rfl | rfl <;> rcases hb with rfl | rfl
      · exact .inl (self rfl)
      · exact .inr (.inl (ac _ _ (.line ((m1 _ _).2 ⟨p, hp, (viewBus_some hl (e1 p hp).1).2 hi, (viewBus_some hl (e1 p hp).2).2 hj⟩))))
      · exact .inr (.inr (ac _ _ (.line ((m1 _ _).2 ⟨p, hp, (viewBus_some hl (e1 p hp).1).2 hj, (viewBus_some hl (e1 p hp).2).2 hi⟩))))
      · exact .inl (self rfl)
    · simp only [List.mem_cons, List.not_mem_nil, or_false] at ha hb
      rcases ha with rfl | rfl <;> rcases hb with rfl | rfl
      · exact .inl (self rfl)
      · exact .inr (.inl (ac _ _ (.trafo ((m2 _ _).2 ⟨p, hp, (viewBus_some hl (e2 p hp).1).2 hi, (viewBus_some hl (e2 p hp).2).2 hj⟩))))
      · exact .inr (.inr (ac _ _ (.trafo ((m2 _ _).2 ⟨p, hp, (viewBus_some hl (e2 p hp).1).2 hj, (viewBus_some hl (e2 p hp).2).2 hi⟩))))
      · exact .inl (self rfl)
    · obtain ⟨x, hx, _⟩ := viewBus_ok hl (e3 p hp).1
      obtain ⟨y, hy, _⟩ := viewBus_ok hl (e3 p hp).2.1
      obtain ⟨z, hz, _⟩ := viewBus_ok hl (e3 p hp).2.2
      have hm := (m3 x y z).2 ⟨p, hp, hx, hy, hz⟩
      have gx : ∀ {i}, At levels p.1 i → x = some i := fun h => Out.ok.inj (hx.symm.trans ((viewBus_some hl (e3 p hp).1).2 h))
      have gy : ∀ {i}, At levels p.2.1 i → y = some i := fun h => Out.ok.inj (hy.symm.trans ((viewBus_some hl (e3 p hp).2.1).2 h))
      have gz : ∀ {i}, At levels p.2.2 i → z = some i := fun h => Out.ok.inj (hz.symm.trans ((viewBus_some hl (e3 p hp).2.2).2 h))
      simp only [List.mem_cons, List.not_mem_nil, or_false] at ha hb
      rcases ha with rfl | rfl | rfl <;> rcases hb with rfl | rfl | rfl
      · exact .inl (self rfl)
      · rw [gx hi, gy hj] at hm; exact .inr (.inl (ac _ _ (.leg12 hm)))
      · rw [gx hi, gz hj] at hm; exact .inr (.inl (ac _ _ (.leg13 hm)))
      · rw [gx hj, gy hi] at hm; exact .inr (.inr (ac _ _ (.leg12 hm)))
      · exact .inl (self rfl)
      · rw [gy hi, gz hj] at hm; exact .inr (.inl (ac _ _ (.leg23 hm)))
      · rw [gx hj, gz hi] at hm; exact .inr (.inr (ac _ _ (.leg13 hm)))
      · rw [gy hj, gz hi] at hm; exact .inr (.inr (ac _ _ (.leg23 hm)))
      · exact .inl (self rfl)
    · simp only [List.mem_cons, List.not_mem_nil, or_false] at ha hb
      rcases ha with rfl | rfl <;> rcases hb with rfl | rfl
      · exact .inl (self rfl)
      · exact .inr (.inl (.dc ((m4 _ _).2 ⟨p, hp, (viewBus_some hl (e4 p hp).1).2 hi, (viewBus_some hl (e4 p hp).2).2 hj⟩)))
      · exact .inr (.inr (.dc ((m4 _ _).2 ⟨p, hp, (viewBus_some hl (e4 p hp).1).2 hj, (viewBus_some hl (e4 p hp).2).2 hi⟩)))
      · exact .inl (self rfl)

/-! ### Paths -/

omit hl in
theorem joined_trans {R : String → String → Prop} {a b c : String} (h : Joined R a b) (h' : Joined R b c) : Joined R a c := by
  induction h' with
  | refl => exact h
  | fwd _ k ih => exact .fwd ih k
  | bwd _ k ih => exact .bwd ih k

omit hl in
theorem same_equipment {es : List (List End)} (hn : (es.flatten.filter End.isNode).Nodup) {l l' : List End} (h : l ∈ es) (h' : l' ∈ es) {a : End} (ha : a ∈ l) (ha' : a ∈ l')
    (hna : a.isNode = true) : l = l' := by
  induction es with
  | nil => exact absurd h List.not_mem_nil
  | cons x xs ih =>
    rw [List.flatten_cons, List.filter_append, List.nodup_append] at hn
    obtain ⟨_, n2, n3⟩ := hn
    have key : ∀ {l : List End}, a ∈ x → l ∈ xs → a ∈ l → False := fun k1 k2 k3 =>
      n3 a (List.mem_filter.2 ⟨k1, hna⟩) a (List.mem_filter.2 ⟨List.mem_flatten.2 ⟨_, k2, k3⟩, hna⟩) rfl
    rcases List.mem_cons.1 h with e | h <;> rcases List.mem_cons.1 h' with e' | h'
    · rw [e, e']
    · exact (key (e ▸ ha) h' ha').elim
    · exact (key (e' ▸ ha') h ha).elim
    · exact ih n2 h h'

theorem chain_of_joined {dc : Bool} {s : Snap} {e : Equip} (h1 : ∀ i j, Rel dc s i j → ∃ l ∈ ends dc e, ∃ a ∈ l, ∃ b ∈ l, At levels a i ∧ At levels b j) {i j : String}
    (h : Joined (Rel dc s) i j) {p q : Spot} (hp : OnView levels p i) (hq : OnView levels q j) : Chain levels (ends dc e) p q := by
  induction h generalizing q with
  | refl => exact (local_of_onView hl hp hq).chain
  | fwd _ k ih =>
    obtain ⟨l, hm, a, ha, b, hb, ka, kb⟩ := h1 _ _ k
    exact (Chain.step (ih ka.2) (.through hm ha hb ka.1 kb.1)).trans (local_of_onView hl kb.2 hq).chain
  | bwd _ k ih =>
    obtain ⟨l, hm, a, ha, b, hb, ka, kb⟩ := h1 _ _ k
    exact (Chain.step (ih kb.2) (.through hm hb ha kb.1 ka.1)).trans (local_of_onView hl ka.2 hq).chain

/-- A path that leaves a bus: where it is, there is a bus linked to the first; or it is at a dead end, reached through an equipment connected to such a bus. -/
theorem joined_of_chain {dc : Bool} {s : Snap} {e : Equip} (he : EquipOk levels e)
    (h2 : ∀ l ∈ ends dc e, ∀ a ∈ l, ∀ b ∈ l, ∀ i j, At levels a i → At levels b j → i = j ∨ Rel dc s i j ∨ Rel dc s j i) {i : String} {p q : Spot}
    (hp : OnView levels p i) (h : Chain levels (ends dc e) p q) :
    (∃ j, OnView levels q j ∧ Joined (Rel dc s) i j) ∨ (¬ ∃ j, OnView levels q j) ∧ ∃ l ∈ ends dc e, ∃ a ∈ l, ∃ b ∈ l, a.Live ∧ Local levels a.spot q ∧
      ∃ j, At levels b j ∧ Joined (Rel dc s) i j := by
  have link : ∀ l ∈ ends dc e, ∀ a ∈ l, ∀ b ∈ l, ∀ j k, At levels a j → At levels b k → Joined (Rel dc s) i j → Joined (Rel dc s) i k := by
    intro l hlm a ha b hb j k hj hk hJ
    rcases h2 l hlm a ha b hb j k hj hk with rfl | h | h
    · exact hJ
    · exact .fwd hJ h
    · exact .bwd hJ h
  have arrive : ∀ l ∈ ends dc e, ∀ b ∈ l, ∀ b' ∈ l, ∀ j, At levels b j → Joined (Rel dc s) i j → b'.Live →
      (∃ j, OnView levels b'.spot j ∧ Joined (Rel dc s) i j) ∨ (¬ ∃ j, OnView levels b'.spot j) ∧ ∃ l ∈ ends dc e, ∃ a ∈ l, ∃ b ∈ l, a.Live ∧ Local levels a.spot b'.spot ∧
        ∃ j, At levels b j ∧ Joined (Rel dc s) i j := by
    intro l hlm b hb b' hb' j hj hJ hlive
    by_cases hv : ∃ k, OnView levels b'.spot k
    · obtain ⟨k, hk⟩ := hv
      exact .inl ⟨k, hk, link l hlm b hb b' hb' j k hj ⟨hlive, hk⟩ hJ⟩
    · exact .inr ⟨hv, l, hlm, b', hb', b, hb, hlive, .refl, j, hj, hJ⟩
  have inner : ∀ {q r : Spot}, Local levels q r →
      ((∃ j, OnView levels q j ∧ Joined (Rel dc s) i j) ∨ (¬ ∃ j, OnView levels q j) ∧ ∃ l ∈ ends dc e, ∃ a ∈ l, ∃ b ∈ l, a.Live ∧ Local levels a.spot q ∧
        ∃ j, At levels b j ∧ Joined (Rel dc s) i j) →
      (∃ j, OnView levels r j ∧ Joined (Rel dc s) i j) ∨ (¬ ∃ j, OnView levels r j) ∧ ∃ l ∈ ends dc e, ∃ a ∈ l, ∃ b ∈ l, a.Live ∧ Local levels a.spot r ∧
        ∃ j, At levels b j ∧ Joined (Rel dc s) i j := by
    intro q r hqr hI
    rcases hI with ⟨j, hj, hJ⟩ | ⟨hn, l, hlm, a, ha, b, hb, hlive, hloc, hrest⟩
    · exact .inl ⟨j, (Local.onView hl hqr).1 hj, hJ⟩
    · exact .inr ⟨fun ⟨j, hj⟩ => hn ⟨j, (Local.onView hl hqr).2 hj⟩, l, hlm, a, ha, b, hb, hlive, hloc.trans hqr, hrest⟩
  induction h with
  | refl => exact .inl ⟨i, hp, .refl⟩
  | step _ hs ih =>
    cases hs with
    | switch hv hed hpass hj => exact inner (.step .refl (.switch hv hed hpass hj)) ih
    | coupler hv hed hpass hj hb hc => exact inner (.step .refl (.coupler hv hed hpass hj hb hc)) ih
    | @through l' a' b' hlm' ha' hb' la' lb' =>
      rcases ih with ⟨j, hj, hJ⟩ | ⟨hn, l, hlm, a, ha, b, hb, hlive, hloc, j, hj, hJ⟩
      · exact arrive l' hlm' a' ha' b' hb' j ⟨la', hj⟩ hJ lb'
      · have ok := he.each l (ends_sub hlm) a ha
        have ok' := he.each l' (ends_sub hlm') a' ha'
        have hna : a.isNode = true := by
          cases hb : a.isNode with
          | true => rfl
          | false =>
            obtain ⟨k, hk⟩ := onView_of_bus hl ok hb hlive
            exact absurd ⟨k, (Local.onView hl hloc).1 hk⟩ hn
        have haa : a = a' := by
          by_cases hne : a = a'
          · exact hne
          · obtain ⟨k, hk⟩ := onView_of_two hl ok ok' hna hne hloc
            exact absurd ⟨k, (Local.onView hl hloc).1 hk⟩ hn
        subst haa
        have hll := same_equipment he.apart (ends_sub hlm) (ends_sub hlm') ha ha' hna
        subst hll
        exact arrive l hlm b hb b' hb' j hj hJ lb'

end levels

end Verif.Electric
