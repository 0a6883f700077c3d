import Verif.Components.Spec

/-! Helper lemmas on the component computation. -/

namespace Verif.Components

open Verif

theorem Path.trans {adj : Adj} {a b c : Nat} (h1 : Path adj a b) (h2 : Path adj b c) : Path adj a c := by
  induction h2 with
  | refl => exact h1
  | step _ h ih => exact .step ih h

theorem Path.head {adj : Adj} {a b c : Nat} (h1 : Next adj a b) (h2 : Path adj b c) : Path adj a c :=
  Path.trans (.step .refl h1) h2

theorem Path.symm {adj : Adj} (hs : ∀ a b, Next adj a b → Next adj b a) {a b : Nat} (h : Path adj a b) : Path adj b a := by
  induction h with
  | refl => exact .refl
  | step _ h ih => exact Path.head (hs _ _ h) ih

def St.M (st : St) (u : Nat) : Prop := ∃ k, st.num[u]? = some (some k)

/-- Lengths and exact sizes. -/
structure Good (adj : Adj) (st : St) : Prop where
  lnum : st.num.length = adj.length
  lsize : st.size.length = adj.length
  exact : ∀ (k : Nat) s, st.size[k]? = some s → s = st.num.count (some k)

structure Post (adj : Adj) (c v : Nat) (st st' : St) : Prop where
  good : Good adj st'
  keep : ∀ (u k : Nat), st.num[u]? = some (some k) → st'.num[u]? = some (some k)
  new : ∀ u, st'.M u → ¬ st.M u → st'.num[u]? = some (some c) ∧ Path adj v u
  closed : ∀ u, st'.M u → ¬ st.M u → ∀ w, Next adj u w → st'.M w
  cnt : st'.num.count none ≤ st.num.count none

theorem St.M_of_keep {st st' : St} (h : ∀ (u k : Nat), st.num[u]? = some (some k) → st'.num[u]? = some (some k)) {u : Nat}
    (hu : st.M u) : st'.M u := by obtain ⟨k, hk⟩ := hu; exact ⟨k, h u k hk⟩

/-- Effect of the marking at the head of the recursive function. -/
theorem mark_good {adj : Adj} {st : St} {c v k : Nat} (hg : Good adj st) (hv : st.num[v]? = some none)
    (hk : st.size[c]? = some k) :
    Good adj ⟨st.num.set v (some c), st.size.set c (k + 1)⟩ ∧
    (st.num.set v (some c)).count none + 1 = st.num.count none := by
  have hlt : v < st.num.length := (List.getElem?_eq_some_iff.mp hv).1
  have hve : st.num[v] = none := (List.getElem?_eq_some_iff.mp hv).2
  have hpos : 0 < st.num.count none := List.count_pos_iff.mpr (by rw [← hve]; exact List.getElem_mem hlt)
  refine ⟨⟨by simp [hg.lnum], by simp [hg.lsize], ?_⟩, ?_⟩
  · intro k' s hs
    simp only [] at hs ⊢
    rw [List.count_set hlt, hve]
    rw [List.getElem?_set] at hs
    by_cases hc : c = k'
    · subst hc
      have hlc : c < st.size.length := (List.getElem?_eq_some_iff.mp hk).1
      simp only [if_true, hlc] at hs
      have := hg.exact c k hk
      simp only [Option.some.injEq] at hs
      simp
      omega
    · simp only [hc, if_false] at hs
      have := hg.exact k' s hs
      simp [hc]
      omega
  · rw [List.count_set hlt, hve]
    simp
    omega

/-- What the loop over the neighbours does. -/
theorem nbrLoop_ok {adj : Adj} {c : Nat} (n : Nat) (hr : InRange adj)
    (ih : ∀ v st, Good adj st → c < adj.length → st.num[v]? = some none → st.num.count none ≤ n →
      ∃ st', dfs adj c n v st = .ok st' ∧ Post adj c v st st' ∧ st'.M v) (v : Nat) (ws : List Nat) :
    ∀ st, Good adj st → c < adj.length → (∀ w ∈ ws, Next adj v w) → st.num.count none ≤ n →
      ∃ st', nbrLoop (dfs adj c n) ws st = .ok st' ∧ Post adj c v st st' ∧ ∀ w ∈ ws, st'.M w := by
  induction ws with
  | nil =>
    intro st hg _ _ _
    exact ⟨st, rfl, ⟨hg, fun _ _ h => h, fun _ h h' => absurd h h', fun _ h h' => absurd h h', Nat.le_refl _⟩, by simp⟩
  | cons w ws ih2 =>
    intro st hg hc hn hcnt
    have hnw := hn w (by simp)
    have hlt : w < adj.length := by
      obtain ⟨l, h1, h2⟩ := hnw
      exact hr v l h1 w h2
    unfold nbrLoop
    cases hw : st.num[w]? with
    | none => rw [List.getElem?_eq_none_iff, hg.lnum] at hw; omega
    | some x =>
      cases x with
      | some k =>
        obtain ⟨st', e, p, q⟩ := ih2 st hg hc (fun w' h => hn w' (List.mem_cons_of_mem _ h)) hcnt
        refine ⟨st', e, p, ?_⟩
        intro w' hw'
        rcases List.mem_cons.mp hw' with rfl | hw'
        · exact ⟨k, p.keep _ _ hw⟩
        · exact q w' hw'
      | none =>
        obtain ⟨st1, e1, p1, q1⟩ := ih w st hg hc hw hcnt
        obtain ⟨st', e, p, q⟩ := ih2 st1 p1.good hc (fun w' h => hn w' (List.mem_cons_of_mem _ h))
          (Nat.le_trans p1.cnt hcnt)
        refine ⟨st', by simp only [e1, Out.bind_ok, e], ?_, ?_⟩
        · refine ⟨p.good, fun u k h => p.keep u k (p1.keep u k h), ?_, ?_, Nat.le_trans p.cnt p1.cnt⟩
          · intro u hu hnu
            by_cases h1 : st1.M u
            · obtain ⟨a, b⟩ := p1.new u h1 hnu
              exact ⟨p.keep u c a, Path.head hnw b⟩
            · exact p.new u hu h1
          · intro u hu hnu x hx
            by_cases h1 : st1.M u
            · exact St.M_of_keep p.keep (p1.closed u h1 hnu x hx)
            · exact p.closed u hu h1 x hx
        · intro w' hw'
          rcases List.mem_cons.mp hw' with rfl | hw'
          · exact St.M_of_keep p.keep q1
          · exact q w' hw'

theorem dfs_ok {adj : Adj} {c : Nat} (hr : InRange adj) (n : Nat) :
    ∀ v st, Good adj st → c < adj.length → st.num[v]? = some none → st.num.count none ≤ n →
      ∃ st', dfs adj c n v st = .ok st' ∧ Post adj c v st st' ∧ st'.M v := by
  induction n with
  | zero =>
    intro v st _ _ hv h
    have : 0 < st.num.count none := List.count_pos_iff.mpr (List.mem_of_getElem? hv)
    omega
  | succ n ih =>
    intro v st hg hc hv hn
    have hlt : v < adj.length := by rw [← hg.lnum]; exact (List.getElem?_eq_some_iff.mp hv).1
    obtain ⟨k, hk⟩ : ∃ k, st.size[c]? = some k := ⟨_, List.getElem?_eq_getElem (by rw [hg.lsize]; exact hc)⟩
    obtain ⟨ws, hws⟩ : ∃ ws, adj[v]? = some ws := ⟨_, List.getElem?_eq_getElem hlt⟩
    obtain ⟨hg1, hc1⟩ := mark_good hg hv hk
    unfold dfs
    simp only [hv, hk, hws]
    have hltn : v < st.num.length := by rw [hg.lnum]; exact hlt
    obtain ⟨st', e, p, q⟩ := nbrLoop_ok n hr ih v ws _ hg1 hc (fun w hw => ⟨ws, hws, hw⟩) (by simp only []; omega)
    have hM1 : St.M ⟨st.num.set v (some c), st.size.set c (k + 1)⟩ v := ⟨c, by simp [hltn]⟩
    have hMv : st'.M v := St.M_of_keep p.keep hM1
    have hself : ∀ u, ¬ st.M u → u ≠ v → ¬ St.M ⟨st.num.set v (some c), st.size.set c (k + 1)⟩ u := by
      rintro u hu hne ⟨k', hk'⟩
      simp only [] at hk'
      rw [List.getElem?_set_ne (Ne.symm hne)] at hk'
      exact hu ⟨k', hk'⟩
    refine ⟨st', e, ⟨p.good, ?_, ?_, ?_, ?_⟩, hMv⟩
    · intro u k' hu
      apply p.keep
      have : v ≠ u := by rintro rfl; rw [hv] at hu; cases hu
      simp only []
      rw [List.getElem?_set_ne this]; exact hu
    · intro u hu hnu
      by_cases h : u = v
      · subst h
        exact ⟨p.keep u c (by simp [hltn]), .refl⟩
      · exact p.new u hu (hself u hnu h)
    · intro u hu hnu w hw
      by_cases h : u = v
      · subst h
        obtain ⟨ws', h1, h2⟩ := hw
        rw [hws] at h1; cases h1
        exact q w h2
      · exact p.closed u hu (hself u hnu h) w hw
    · have := p.cnt
      simp only [] at this
      omega

/-- State between two searches: components `0..c-1` are complete. -/
structure Inv (adj : Adj) (c : Nat) (st : St) : Prop where
  good : Good adj st
  lt : ∀ (u k : Nat), st.num[u]? = some (some k) → k < c
  all : ∀ k, k < c → ∃ u : Nat, st.num[u]? = some (some k)
  closed : ∀ u, st.M u → ∀ w, Next adj u w → st.M w
  conn : ∀ k, k < c → ∃ r, ∀ u : Nat, st.num[u]? = some (some k) → Path adj r u
  cc : c + st.num.count none ≤ adj.length

/-- With symmetric adjacency the numbers are constant along edges. -/
def Const (adj : Adj) (st : St) : Prop := ∀ (u k : Nat), st.num[u]? = some (some k) → ∀ w, Next adj u w → st.num[w]? = some (some k)

theorem vertexLoop_ok {adj : Adj} (hr : InRange adj) (vs : List Nat) : ∀ (c : Nat) (st : St), Inv adj c st →
    (∀ v ∈ vs, v < adj.length) →
    ∃ c' st', vertexLoop adj vs c st = .ok (c', st') ∧ Inv adj c' st' ∧ (∀ u, st.M u → st'.M u) ∧ (∀ v ∈ vs, st'.M v) ∧
      ((∀ a b, Next adj a b → Next adj b a) → Const adj st → Const adj st') := by
  induction vs with
  | nil => intro c st h _; exact ⟨c, st, rfl, h, fun _ h => h, by simp, fun _ h => h⟩
  | cons v vs ih =>
    intro c st h hlt
    have hv := hlt v (by simp)
    have hvs : ∀ w ∈ vs, w < adj.length := fun w hw => hlt w (List.mem_cons_of_mem _ hw)
    unfold vertexLoop
    cases hn : st.num[v]? with
    | none => rw [List.getElem?_eq_none_iff, h.good.lnum] at hn; omega
    | some x =>
      cases x with
      | some k =>
        obtain ⟨c', st', e, a, b, d, f⟩ := ih c st h hvs
        refine ⟨c', st', e, a, b, ?_, f⟩
        intro w hw
        rcases List.mem_cons.mp hw with rfl | hw
        · exact b w ⟨k, hn⟩
        · exact d w hw
      | none =>
        have hpos : 0 < st.num.count none := List.count_pos_iff.mpr (List.mem_of_getElem? hn)
        have hc : c < adj.length := by have := h.cc; omega
        obtain ⟨st1, e1, p, hM⟩ := dfs_ok (c := c) hr (adj.length + 1) v st h.good hc hn (by
          have := List.count_le_length (a := none) (l := st.num)
          rw [h.good.lnum] at this; omega)
        have hnv : ¬ st.M v := by rintro ⟨k, hk⟩; rw [hn] at hk; cases hk
        have hcase : ∀ (u k : Nat), st1.num[u]? = some (some k) → st.num[u]? = some (some k) ∨ (¬ st.M u ∧ k = c ∧ Path adj v u) := by
          intro u k hu
          by_cases hM' : st.M u
          · obtain ⟨k', hk'⟩ := hM'
            have := p.keep u k' hk'
            rw [hu] at this; cases this
            exact Or.inl hk'
          · obtain ⟨h1, h2⟩ := p.new u ⟨k, hu⟩ hM'
            rw [hu] at h1; cases h1
            exact Or.inr ⟨hM', rfl, h2⟩
        have hcount : st1.num.count none < st.num.count none := by
          have hvlt : v < st.num.length := (List.getElem?_eq_some_iff.mp hn).1
          -- compare pointwise
          have key : ∀ (a b : List (Option Nat)), a.length = b.length →
              (∀ (u k : Nat), a[u]? = some (some k) → b[u]? = some (some k)) →
              b.count none ≤ a.count none ∧ ((∃ (u k : Nat), a[u]? = some none ∧ b[u]? = some (some k)) → b.count none < a.count none) := by
            intro a
            induction a with
            | nil =>
              intro b hb _
              cases b with
              | nil => exact ⟨Nat.le_refl _, by rintro ⟨u, k, hu, _⟩; simp at hu⟩
              | cons => simp at hb
            | cons x a iha =>
              intro b hb hk
              cases b with
              | nil => simp at hb
              | cons y b =>
                obtain ⟨i1, i2⟩ := iha b (by simpa using hb) (fun u k hu => by simpa using hk (u + 1) k (by simpa using hu))
                have hxy : ∀ k, x = some k → y = some k := by
                  intro k hx; have := hk 0 k (by simp [hx]); simpa using this
                refine ⟨?_, ?_⟩
                · simp only [List.count_cons]
                  cases x with
                  | some k => rw [hxy k rfl]; simpa using i1
                  | none => cases y <;> simp <;> omega
                · rintro ⟨u, k, hu1, hu2⟩
                  simp only [List.count_cons]
                  cases u with
                  | zero =>
                    simp at hu1 hu2
                    subst hu1; subst hu2
                    simp; omega
                  | succ u =>
                    have := i2 ⟨u, k, by simpa using hu1, by simpa using hu2⟩
                    cases x with
                    | some k => rw [hxy k rfl]; simpa using this
                    | none => cases y <;> simp <;> omega
          obtain ⟨k, hk⟩ := hM
          exact (key st.num st1.num (by rw [h.good.lnum, p.good.lnum]) p.keep).2 ⟨v, k, hn, hk⟩
        have hInv : Inv adj (c + 1) st1 := by
          refine ⟨p.good, ?_, ?_, ?_, ?_, ?_⟩
          · intro u k hu
            rcases hcase u k hu with h1 | ⟨_, h1, _⟩
            · exact Nat.lt_succ_of_lt (h.lt u k h1)
            · omega
          · intro k hk
            by_cases hkc : k = c
            · subst hkc
              exact ⟨v, (p.new v hM hnv).1⟩
            · obtain ⟨u, hu⟩ := h.all k (by omega)
              exact ⟨u, p.keep u k hu⟩
          · intro u hu w hw
            by_cases h1 : st.M u
            · exact St.M_of_keep p.keep (h.closed u h1 w hw)
            · exact p.closed u hu h1 w hw
          · intro k hk
            by_cases hkc : k = c
            · subst hkc
              refine ⟨v, fun u hu => ?_⟩
              rcases hcase u k hu with h1 | ⟨_, _, h1⟩
              · exact absurd (h.lt u k h1) (Nat.lt_irrefl _)
              · exact h1
            · obtain ⟨r, hr'⟩ := h.conn k (by omega)
              refine ⟨r, fun u hu => ?_⟩
              rcases hcase u k hu with h1 | ⟨_, h1, _⟩
              · exact hr' u h1
              · exact absurd h1 hkc
          · have := h.cc; omega
        obtain ⟨c', st', e, a, b, d, f⟩ := ih (c + 1) st1 hInv hvs
        refine ⟨c', st', by simp only [e1, Out.bind_ok, e], a, fun u hu => b u (St.M_of_keep p.keep hu), ?_, ?_⟩
        · intro w hw
          rcases List.mem_cons.mp hw with rfl | hw
          · exact b w hM
          · exact d w hw
        · intro hs hC
          refine f hs ?_
          intro u k hu w hw
          rcases hcase u k hu with h1 | ⟨h1, h2, _⟩
          · exact p.keep w k (hC u k h1 w hw)
          · subst h2
            have hMw := p.closed u ⟨k, hu⟩ h1 w hw
            by_cases hMw0 : st.M w
            · exact absurd (h.closed w hMw0 u (hs u w hw)) h1
            · exact (p.new w hMw hMw0).1

theorem search_ok {adj : Adj} (hr : InRange adj) :
    ∃ c st, search adj = .ok (c, st) ∧ Inv adj c st ∧ (∀ v, v < adj.length → st.M v) ∧
      ((∀ a b, Next adj a b → Next adj b a) → Const adj st) := by
  have hnone : ∀ (u k : Nat), ¬ (List.replicate adj.length (none : Option Nat))[u]? = some (some k) := by
    intro u k h
    rw [List.getElem?_replicate] at h
    split at h <;> simp at h
  have hI : Inv adj 0 ⟨List.replicate adj.length none, List.replicate adj.length 0⟩ := by
    refine ⟨⟨by simp, by simp, ?_⟩, ?_, ?_, ?_, ?_, ?_⟩
    · intro k s hs
      simp only [] at hs ⊢
      rw [List.getElem?_replicate] at hs
      split at hs
      · cases hs; simp [List.count_replicate]
      · cases hs
    · intro u k h; exact absurd h (hnone u k)
    · intro k hk; omega
    · rintro u ⟨k, hk⟩; exact absurd hk (hnone u k)
    · intro k hk; omega
    · simp
  obtain ⟨c, st, e, a, _, d, f⟩ := vertexLoop_ok hr (List.range adj.length) 0 _ hI (by simp)
  refine ⟨c, st, e, a, fun v hv => d v (by simpa using hv), fun hs => f hs ?_⟩
  intro u k hu; exact absurd hu (hnone u k)

/-! ### The renumbering -/

theorem assign_length (ks : List Nat) : ∀ i ord, (assign ks i ord).length = ord.length := by
  induction ks with
  | nil => intros; rfl
  | cons k ks ih => intro i ord; simp [assign, ih]

theorem assign_not_mem {ks : List Nat} : ∀ {i : Nat} {ord : List Nat} {j : Nat}, j ∉ ks → (assign ks i ord)[j]? = ord[j]? := by
  induction ks with
  | nil => intros; rfl
  | cons k ks ih =>
    intro i ord j hj
    simp only [List.mem_cons, not_or] at hj
    rw [assign, ih hj.2, List.getElem?_set_ne (Ne.symm hj.1)]

theorem assign_get {ks : List Nat} : ∀ {i : Nat} {ord : List Nat}, ks.Nodup → (∀ k ∈ ks, k < ord.length) →
    ∀ (t : Nat) k, ks[t]? = some k → (assign ks i ord)[k]? = some (i + t) := by
  induction ks with
  | nil => intro i ord _ _ t k h; simp at h
  | cons k0 ks ih =>
    intro i ord hn hlt t k h
    have hn' := List.nodup_cons.mp hn
    cases t with
    | zero =>
      simp at h; subst h
      rw [assign, assign_not_mem hn'.1]
      simp [hlt k0 (by simp)]
    | succ t =>
      rw [assign, ih hn'.2 (fun k' hk' => by simpa using hlt k' (List.mem_cons_of_mem _ hk')) t k (by simpa using h)]
      congr 1; omega

theorem resizeLoop_ok {compSize ord : List Nat} {ks : List Nat} : ∀ {out : List Nat},
    (∀ k ∈ ks, k < compSize.length) → (∀ k ∈ ks, ∃ i, ord[k]? = some i ∧ i < out.length) →
    (∀ k ∈ ks, ∀ k' ∈ ks, ord[k]? = ord[k']? → k = k') →
    ∃ out', resizeLoop compSize ord ks out = .ok out' ∧ out'.length = out.length ∧
      (∀ k ∈ ks, ∀ i, ord[k]? = some i → out'[i]? = compSize[k]?) ∧
      (∀ i, (∀ k ∈ ks, ord[k]? ≠ some i) → out'[i]? = out[i]?) := by
  induction ks with
  | nil => intro out _ _ _; exact ⟨out, rfl, rfl, by simp, by simp⟩
  | cons k ks ih =>
    intro out h1 h2 h3
    obtain ⟨i, hi, hil⟩ := h2 k (by simp)
    have hk := List.getElem?_eq_getElem (h1 k (by simp))
    unfold resizeLoop
    rw [hk, hi]
    simp only [hil, if_true]
    obtain ⟨out', e, l, a, b⟩ := ih (out := out.set i (compSize[k]'(h1 k (by simp)))) (fun k' hk' => h1 k' (List.mem_cons_of_mem _ hk'))
      (fun k' hk' => by simpa using h2 k' (List.mem_cons_of_mem _ hk'))
      (fun x hx y hy => h3 x (List.mem_cons_of_mem _ hx) y (List.mem_cons_of_mem _ hy))
    refine ⟨out', e, by simpa using l, ?_, ?_⟩
    · intro k' hk' j hj
      by_cases hin : k' ∈ ks
      · exact a k' hin j hj
      · rcases List.mem_cons.mp hk' with rfl | h
        · rw [hi] at hj; cases hj
          rw [b i]
          · rw [hk]; simp [hil]
          · intro x hx he
            have := h3 k' (by simp) x (List.mem_cons_of_mem _ hx) (by rw [hi, he])
            subst this; exact hin hx
        · exact absurd h hin
    · intro j hj
      rw [b j (fun x hx => hj x (List.mem_cons_of_mem _ hx))]
      have : i ≠ j := by rintro rfl; exact hj k (by simp) hi
      rw [List.getElem?_set_ne this]

theorem renumber_ok {ord : List Nat} {num : List (Option Nat)} :
    (∀ x ∈ num, ∃ k, x = some k ∧ k < ord.length) →
    ∃ l, renumber ord num = .ok l ∧ l.length = num.length ∧
      ∀ (u : Nat) k, num[u]? = some (some k) → l[u]? = ord[k]? := by
  induction num with
  | nil => intro _; exact ⟨[], rfl, rfl, by simp⟩
  | cons x num ih =>
    intro h
    obtain ⟨k, rfl, hk⟩ := h x (by simp)
    obtain ⟨l, e, ll, a⟩ := ih (fun y hy => h y (List.mem_cons_of_mem _ hy))
    unfold renumber
    rw [List.getElem?_eq_getElem hk, e]
    refine ⟨_, rfl, by simp [ll], ?_⟩
    intro u k' hu
    cases u with
    | zero =>
      simp at hu; subst hu
      simp [List.getElem?_eq_getElem hk]
    | succ u => simpa using a u k' (by simpa using hu)

end Verif.Components
