import Verif.Traverse.Spec

/-! Helper lemmas for the topological traversals. -/

namespace Verif.Traverse

open Verif Verif.Graph

theorem mem_ins {t x : Nat} {l : List Nat} : x ∈ ins t l ↔ x = t ∨ x ∈ l := by
  unfold ins
  split
  · constructor
    · exact Or.inr
    · rintro (rfl | h) <;> assumption
  · simp [or_comm]

theorem ins_nodup {t : Nat} {l : List Nat} (h : l.Nodup) : (ins t l).Nodup := by
  unfold ins
  split
  · exact h
  · rename_i hn
    rw [List.nodup_append]
    refine ⟨h, by simp, ?_⟩
    intro a ha b hb
    rw [List.mem_singleton] at hb
    subst hb
    rintro rfl
    exact hn ha

theorem addNext_spec {net : Net} (hwf : net.WF) {t : Nat} (ht : t ∈ net.terms) (nx : List Nat) :
    ∃ nx', addNext net t nx = .ok nx' ∧ ∀ n, n ∈ nx' ↔ n ∈ nx ∨ Mate net t n := by
  have ho := hwf.own ht
  have hd := hwf.nodup ht
  unfold addNext
  unfold Mate
  cases hc : net.conn t with
  | injection => exact ⟨nx, rfl, fun n => by simp [Conn.members]⟩
  | branch t1 t2 =>
    rw [hc] at ho hd
    have hd' : t1 ≠ t2 := by simpa [Conn.members] using hd
    have ho' : t = t1 ∨ t = t2 := by simpa [Conn.members] using ho
    rcases ho' with rfl | rfl
    · refine ⟨_, if_pos rfl, fun n => ?_⟩
      rw [mem_ins]
      simp only [Conn.members, List.mem_cons, List.not_mem_nil, or_false, true_or, true_and]
      constructor
      · rintro (rfl | h)
        · exact Or.inr ⟨Or.inr rfl, hd'⟩
        · exact Or.inl h
      · rintro (h | ⟨h | h, h'⟩)
        · exact Or.inr h
        · exact absurd h.symm h'
        · exact Or.inl h
    · refine ⟨_, (if_neg hd').trans (if_pos rfl), fun n => ?_⟩
      rw [mem_ins]
      simp only [Conn.members, List.mem_cons, List.not_mem_nil, or_false, or_true, true_and]
      constructor
      · rintro (rfl | h)
        · exact Or.inr ⟨Or.inl rfl, hd'.symm⟩
        · exact Or.inl h
      · rintro (h | ⟨h | h, h'⟩)
        · exact Or.inr h
        · exact Or.inl h
        · exact absurd h.symm h'
  | three t1 t2 t3 =>
    rw [hc] at ho hd
    have hd' : (t1 ≠ t2 ∧ t1 ≠ t3) ∧ t2 ≠ t3 := by simpa [Conn.members] using hd
    obtain ⟨⟨h12, h13⟩, h23⟩ := hd'
    have ho' : t = t1 ∨ t = t2 ∨ t = t3 := by simpa [Conn.members] using ho
    have fin : ∀ (a b : Nat) (n : Nat), (∀ m, m ∈ [t1, t2, t3] ↔ m = t ∨ m = a ∨ m = b) → t ≠ a → t ≠ b →
        (n ∈ ins b (ins a nx) ↔ n ∈ nx ∨ t ∈ [t1, t2, t3] ∧ n ∈ [t1, t2, t3] ∧ t ≠ n) := by
      intro a b n hm ha hb
      rw [mem_ins, mem_ins, hm t, hm n]
      constructor
      · rintro (rfl | rfl | h)
        · exact Or.inr ⟨Or.inl rfl, Or.inr (Or.inr rfl), hb⟩
        · exact Or.inr ⟨Or.inl rfl, Or.inr (Or.inl rfl), ha⟩
        · exact Or.inl h
      · rintro (h | ⟨_, h | h | h, h'⟩)
        · exact Or.inr (Or.inr h)
        · exact absurd h.symm h'
        · exact Or.inr (Or.inl h)
        · exact Or.inl h
    rcases ho' with rfl | rfl | rfl
    · exact ⟨_, if_pos rfl, fun n => fin t2 t3 n (by simp) h12 h13⟩
    · exact ⟨_, (if_neg h12).trans (if_pos rfl), fun n => fin t1 t3 n (fun m => by simp only [List.mem_cons, List.not_mem_nil, or_false]; constructor <;> rintro (h | h | h) <;> simp [h]) h12.symm h23⟩
    · exact ⟨_, (if_neg h13).trans ((if_neg h23).trans (if_pos rfl)), fun n => fin t1 t2 n (fun m => by simp only [List.mem_cons, List.not_mem_nil, or_false]; constructor <;> rintro (h | h | h) <;> simp [h]) h13.symm h23.symm⟩

/-! ### More questions allow more -/

abbrev Sub (l l' : List (Q × Bool)) : Prop := ∀ x ∈ l, x ∈ l'

theorem Accepted.mono {l l' : List (Q × Bool)} (h : Sub l l') {t : Nat} (ha : Accepted l t) : Accepted l' t := by
  obtain ⟨c, hc⟩ := ha
  exact ⟨c, h _ hc⟩

theorem Passed.mono {net : Net} {l l' : List (Q × Bool)} (h : Sub l l') {vl u : Nat} (hp : Passed net l vl u) :
    Passed net l' vl u := by
  unfold Passed at hp ⊢
  cases ht : net.topo vl with
  | node g => rw [ht] at hp; exact fun t hv => (hp t hv).mono h
  | bus g =>
    rw [ht] at hp
    intro ts hv
    rcases hp ts hv with hh | ⟨t, h1, h2⟩
    · exact Or.inl hh
    · exact Or.inr ⟨t, h1, h2.mono h⟩

theorem Near.mono {net : Net} {t0 : Nat} {l l' : List (Q × Bool)} (h : Sub l l') {p : Nat × Nat}
    (hn : Near net t0 l p) : Near net t0 l' p := by
  induction hn with
  | start => exact .start
  | edge _ hp hj hy ih => exact .edge ih (hp.mono h) hj (fun x hx => h _ (hy x hx))
  | across _ ha hm ih => exact .across ih (ha.mono h) hm

theorem Justified.mono {net : Net} {t0 : Nat} {l l' : List (Q × Bool)} (h : Sub l l') {q : Q}
    (hj : Justified net t0 l q) : Justified net t0 l' q := by
  cases q with
  | term t c => exact ⟨hj.1, hj.2.1, hj.2.2.mono h⟩
  | sw x =>
    obtain ⟨vl, u, w, h1, h2, h3⟩ := hj
    exact ⟨vl, u, w, h1.mono h, h2.mono h, h3⟩

/-! ### Invariants -/

structure Inv (net : Net) (t0 : Nat) (st : St) : Prop where
  just : ∀ q b, (q, b) ∈ st.log → Justified net t0 st.log q
  acc : ∀ t ∈ st.traversed, t ∈ net.terms ∧ Accepted st.log t
  nodup : st.traversed.Nodup

structure Grow (st st' : St) : Prop where
  log : Sub st.log st'.log
  trav : ∀ t ∈ st.traversed, t ∈ st'.traversed

theorem Grow.refl (st : St) : Grow st st := ⟨fun _ h => h, fun _ h => h⟩

theorem Grow.trans {a b c : St} (h : Grow a b) (h' : Grow b c) : Grow a c :=
  ⟨fun x hx => h'.log x (h.log x hx), fun x hx => h'.trav x (h.trav x hx)⟩

theorem ask_log (f : Ask) (st : St) (q : Q) : (st.ask f q).1.log = st.log ++ [(q, (st.ask f q).2)] := rfl

theorem ask_sub (f : Ask) (st : St) (q : Q) : Sub st.log (st.ask f q).1.log := by
  intro x hx; rw [ask_log]; simp [hx]

theorem ask_grow (f : Ask) (st : St) (q : Q) : Grow st (st.ask f q).1 := ⟨ask_sub f st q, fun _ h => h⟩

theorem ask_yes {f : Ask} {st : St} {q : Q} (h : (st.ask f q).2 = true) : Yes (st.ask f q).1.log q := by
  unfold Yes; rw [ask_log, h]; simp

theorem ask_inv {net : Net} {t0 : Nat} (f : Ask) {st : St} (h : Inv net t0 st) {q : Q} (hq : Justified net t0 st.log q) :
    Inv net t0 (st.ask f q).1 := by
  refine ⟨?_, fun t ht => ⟨(h.acc t ht).1, (h.acc t ht).2.mono (ask_sub f st q)⟩, h.nodup⟩
  intro q' b hm
  rw [ask_log] at hm
  rcases List.mem_append.mp hm with hm | hm
  · exact (h.just q' b hm).mono (ask_sub f st q)
  · simp at hm
    rw [hm.1]
    exact hq.mono (ask_sub f st q)

theorem mark_inv {net : Net} {t0 : Nat} {st : St} (h : Inv net t0 st) {t : Nat} (ht : t ∈ net.terms)
    (ha : Accepted st.log t) : Inv net t0 (st.mark t) := by
  refine ⟨h.just, ?_, ins_nodup h.nodup⟩
  intro x hx
  rcases mem_ins.mp hx with rfl | hx
  · exact ⟨ht, ha⟩
  · exact h.acc x hx

theorem mark_grow (st : St) (t : Nat) : Grow st (st.mark t) := ⟨fun _ h => h, fun _ h => mem_ins.mpr (Or.inr h)⟩

/-- The terminals kept for later are mates of accepted terminals. -/
def NextOk (net : Net) (t0 : Nat) (log : List (Q × Bool)) (nx : List Nat) : Prop :=
  ∀ n ∈ nx, ∃ t, t ∈ net.terms ∧ Near net t0 log (net.place t) ∧ Accepted log t ∧ Mate net t n

theorem NextOk.mono {net : Net} {t0 : Nat} {l l' : List (Q × Bool)} (h : Sub l l') {nx : List Nat}
    (hn : NextOk net t0 l nx) : NextOk net t0 l' nx := by
  intro n hm
  obtain ⟨t, h1, h2, h3, h4⟩ := hn n hm
  exact ⟨t, h1, h2.mono h, h3.mono h, h4⟩

structure WInv (net : Net) (t0 : Nat) (st0 : St) (w : W) : Prop where
  inv : Inv net t0 w.st
  next : NextOk net t0 w.st.log w.next
  grow : Grow st0 w.st

def At (net : Net) (t0 vl : Nat) (w : W) (u : Nat) : Prop := Near net t0 w.st.log (vl, u) ∧ Passed net w.st.log vl u

theorem At.mono {net : Net} {t0 vl : Nat} {w w' : W} (h : Sub w.st.log w'.st.log) {u : Nat} (ha : At net t0 vl w u) :
    At net t0 vl w' u := ⟨ha.1.mono h, ha.2.mono h⟩

theorem next_step {net : Net} (hwf : net.WF) {t0 t : Nat} {log : List (Q × Bool)} {nx nx' : List Nat}
    (hn : NextOk net t0 log nx) (ht : t ∈ net.terms) (hnear : Near net t0 log (net.place t)) (ha : Accepted log t)
    (h : ∀ n, n ∈ nx' ↔ n ∈ nx ∨ Mate net t n) : NextOk net t0 log nx' := by
  intro n hm
  rcases (h n).mp hm with hm | hm
  · exact hn n hm
  · exact ⟨t, ht, hnear, ha, hm⟩

theorem nodeCb_keeps {net : Net} (hwf : net.WF) (t0 : Nat) (f : Ask) {vl : Nat} {g : G Nat Nat}
    (hg : net.topo vl = .node g) (st0 : St) : Keeps g (WInv net t0 st0) (At net t0 vl) (nodeCb net f g) := by
  intro w u e v hw hu hval
  obtain ⟨ed, hed, hj⟩ := hval
  have hlive : g.vertexAt v ≠ none := by
    obtain ⟨k1, k2⟩ := (hwf.nodeG hg).wf.ends e ed hed
    rcases hj with ⟨_, rfl⟩ | ⟨_, rfl⟩
    · exact k2
    · exact k1
  obtain ⟨other, hoth⟩ := Option.ne_none_iff_exists'.mp hlive
  have hjoin : Joined net vl u v ed.obj := by unfold Joined; rw [hg]; exact ⟨e, ed, hed, hj, rfl⟩
  unfold nodeCb
  rw [hed, hoth]
  simp only []
  -- after the question about the switch
  have step1 : ∃ r : St × Bool, askEdge f w.st ed.obj = r ∧
      Inv net t0 r.1 ∧ Grow w.st r.1 ∧ (r.2 = true → ∀ h, ed.obj = some h → Yes r.1.log (.sw h)) := by
    cases ho : ed.obj with
    | none => exact ⟨_, rfl, hw.inv, Grow.refl _, fun _ h hh => by cases hh⟩
    | some h =>
      refine ⟨_, rfl, ask_inv f hw.inv ⟨vl, u, v, hu.1, hu.2, ho ▸ hjoin⟩, ask_grow _ _ _, ?_⟩
      intro hy h' hh; cases hh; exact ask_yes hy
  obtain ⟨r, e1, r1, r2, r3⟩ := step1
  rw [e1]
  cases hb : r.2 with
  | false =>
    exact ⟨_, _, rfl, ⟨r1, hw.next.mono r2.log, hw.grow.trans r2⟩, nofun, fun x hx => hx.mono r2.log⟩
  | true =>
    have hnear : Near net t0 r.1.log (vl, v) := .edge (hu.1.mono r2.log) (hu.2.mono r2.log) hjoin (r3 hb)
    simp only [if_true]
    cases other with
    | none =>
      refine ⟨_, _, rfl, ⟨r1, hw.next.mono r2.log, hw.grow.trans r2⟩, fun _ => ⟨hnear, ?_⟩, fun x hx => hx.mono r2.log⟩
      unfold Passed; rw [hg]
      intro t ht; rw [hoth] at ht; cases ht
    | some t =>
      obtain ⟨ht, hpl⟩ := hwf.nodeObj hg hoth
      have hflag : true = net.flag t := by unfold Net.flag; rw [hpl]; simp only [hg]
      have hjt : Justified net t0 r.1.log (.term t true) := ⟨ht, hflag, hpl ▸ hnear⟩
      simp only []
      have hsub := ask_sub f r.1 (.term t true)
      have hi := ask_inv f r1 hjt
      cases hb' : (r.1.ask f (.term t true)).2 with
      | false =>
        simp only [Bool.false_eq_true, if_false]
        exact ⟨_, _, rfl, ⟨hi, (hw.next.mono r2.log).mono hsub, (hw.grow.trans r2).trans (ask_grow _ _ _)⟩, nofun,
          fun x hx => (At.mono (w' := ⟨r.1, w.next⟩) r2.log hx).mono hsub⟩
      | true =>
        have hy : Accepted (r.1.ask f (.term t true)).1.log t := ⟨true, ask_yes hb'⟩
        obtain ⟨nx, q1, q2⟩ := addNext_spec hwf ht w.next
        simp only [if_true, q1, Out.map]
        refine ⟨_, _, rfl, ⟨mark_inv hi ht hy, ?_, ((hw.grow.trans r2).trans (ask_grow _ _ _)).trans (mark_grow _ _)⟩, ?_,
          fun x hx => (At.mono (w' := ⟨r.1, w.next⟩) r2.log hx).mono hsub⟩
        · exact next_step hwf ((hw.next.mono r2.log).mono hsub) ht (hpl ▸ hnear.mono hsub) hy q2
        · intro _
          refine ⟨hnear.mono hsub, ?_⟩
          unfold Passed; rw [hg]
          intro t' ht'; rw [hoth] at ht'; cases ht'; exact hy

theorem busCb_keeps {net : Net} (hwf : net.WF) (t0 : Nat) (f : Ask) {vl : Nat} {g : G (List Nat) Nat}
    (hg : net.topo vl = .bus g) (st0 : St) : Keeps g (WInv net t0 st0) (At net t0 vl) (busCb net f g) := by
  intro w u e v hw hu hval
  obtain ⟨ed, hed, hj⟩ := hval
  have hlive : g.vertexAt v ≠ none := by
    obtain ⟨k1, k2⟩ := (hwf.busG hg).wf.ends e ed hed
    rcases hj with ⟨_, rfl⟩ | ⟨_, rfl⟩
    · exact k2
    · exact k1
  obtain ⟨ts, hoth, hts⟩ := hwf.busObj hg hlive
  have hjoin : Joined net vl u v ed.obj := by unfold Joined; rw [hg]; exact ⟨e, ed, hed, hj, rfl⟩
  obtain ⟨h, ho⟩ := Option.ne_none_iff_exists'.mp (hwf.busSw hg hed)
  unfold busCb
  obtain ⟨v1, v2, obj⟩ := ed
  simp only at ho
  subst ho
  rw [hed, hoth]
  simp only []
  have r1 := ask_inv f hw.inv (q := .sw h) ⟨vl, u, v, hu.1, hu.2, hjoin⟩
  have r2 := ask_grow f w.st (.sw h)
  generalize hr : w.st.ask f (.sw h) = r at r1 r2
  have r3 : r.2 = true → Yes r.1.log (.sw h) := by subst hr; exact ask_yes
  cases hb : r.2 with
  | false =>
    exact ⟨_, _, rfl, ⟨r1, hw.next.mono r2.log, hw.grow.trans r2⟩, nofun, fun x hx => hx.mono r2.log⟩
  | true =>
    have hnear : Near net t0 r.1.log (vl, v) := .edge (hu.1.mono r2.log) (hu.2.mono r2.log) hjoin
      (fun h' hh => by cases hh; exact r3 hb)
    simp only [if_true]
    cases ts with
    | nil =>
      refine ⟨_, _, rfl, ⟨r1, hw.next.mono r2.log, hw.grow.trans r2⟩, fun _ => ⟨hnear, ?_⟩, fun x hx => hx.mono r2.log⟩
      unfold Passed; rw [hg]
      intro ts ht; rw [hoth] at ht; cases ht; exact Or.inl rfl
    | cons t ts =>
      obtain ⟨ht, hpl⟩ := hts t (by simp)
      have hflag : net.connected t = net.flag t := by unfold Net.flag; rw [hpl]; simp only [hg]
      have hjt : Justified net t0 r.1.log (.term t (net.connected t)) := ⟨ht, hflag, hpl ▸ hnear⟩
      simp only []
      have hsub := ask_sub f r.1 (.term t (net.connected t))
      have hi := ask_inv f r1 hjt
      cases hb' : (r.1.ask f (.term t (net.connected t))).2 with
      | false =>
        simp only [Bool.false_eq_true, if_false]
        exact ⟨_, _, rfl, ⟨hi, (hw.next.mono r2.log).mono hsub, (hw.grow.trans r2).trans (ask_grow _ _ _)⟩, nofun,
          fun x hx => (At.mono (w' := ⟨r.1, w.next⟩) r2.log hx).mono hsub⟩
      | true =>
        have hy : Accepted (r.1.ask f (.term t (net.connected t))).1.log t := ⟨_, ask_yes hb'⟩
        obtain ⟨nx, q1, q2⟩ := addNext_spec hwf ht w.next
        simp only [if_true, q1, Out.map]
        refine ⟨_, _, rfl, ⟨mark_inv hi ht hy, ?_, ((hw.grow.trans r2).trans (ask_grow _ _ _)).trans (mark_grow _ _)⟩, ?_,
          fun x hx => (At.mono (w' := ⟨r.1, w.next⟩) r2.log hx).mono hsub⟩
        · exact next_step hwf ((hw.next.mono r2.log).mono hsub) ht (hpl ▸ hnear.mono hsub) hy q2
        · intro _
          refine ⟨hnear.mono hsub, ?_⟩
          unfold Passed; rw [hg]
          intro ts' ht'; rw [hoth] at ht'; cases ht'; exact Or.inr ⟨t, by simp, hy⟩

theorem sameBus_inv {net : Net} (hwf : net.WF) (t0 : Nat) (f : Ask) {vl v : Nat} {g : G (List Nat) Nat}
    (hg : net.topo vl = .bus g) (st0 : St) (t : Nat) (ts : List Nat)
    (hts : ∀ x ∈ ts, x ∈ net.terms ∧ net.place x = (vl, v)) :
    ∀ w, WInv net t0 st0 w → At net t0 vl w v → ∃ w', sameBus net f t ts w = .ok w' ∧ WInv net t0 st0 w' ∧ At net t0 vl w' v := by
  induction ts with
  | nil => intro w hw ha; exact ⟨w, rfl, hw, ha⟩
  | cons x ts ih =>
    intro w hw ha
    have ih' := ih (fun y hy => hts y (List.mem_cons_of_mem _ hy))
    obtain ⟨hx, hpl⟩ := hts x (by simp)
    unfold sameBus
    by_cases hxt : x = t
    · rw [if_pos hxt]; exact ih' w hw ha
    · rw [if_neg hxt]
      have hflag : net.connected x = net.flag x := by unfold Net.flag; rw [hpl]; simp only [hg]
      have hjt : Justified net t0 w.st.log (.term x (net.connected x)) := ⟨hx, hflag, hpl ▸ ha.1⟩
      have hsub := ask_sub f w.st (.term x (net.connected x))
      have hi := ask_inv f hw.inv hjt
      simp only []
      cases hb : (w.st.ask f (.term x (net.connected x))).2 with
      | false =>
        simp only [Bool.false_eq_true, if_false]
        exact ih' _ ⟨hi, hw.next.mono hsub, hw.grow.trans (ask_grow _ _ _)⟩ (ha.mono hsub)
      | true =>
        have hy : Accepted (w.st.ask f (.term x (net.connected x))).1.log x := ⟨_, ask_yes hb⟩
        obtain ⟨nx, q1, q2⟩ := addNext_spec hwf hx w.next
        simp only [if_true, q1, Out.bind_ok]
        exact ih' _ ⟨hi, next_step hwf (hw.next.mono hsub) hx (hpl ▸ ha.1.mono hsub) hy q2, hw.grow.trans (ask_grow _ _ _)⟩
          (ha.mono hsub)

theorem inLevel_inv {net : Net} (hwf : net.WF) (t0 : Nat) (f : Ask) {t : Nat} (ht : t ∈ net.terms) {st : St}
    (hi : Inv net t0 st) (hn : Near net t0 st.log (net.place t)) (ha : Accepted st.log t) :
    ∃ w, inLevel net f t st = .ok w ∧ WInv net t0 st w := by
  obtain ⟨nx, q1, q2⟩ := addNext_spec hwf ht []
  unfold inLevel
  rw [q1, Out.bind_ok]
  have hnx : NextOk net t0 st.log nx := next_step hwf (nx := []) nofun ht hn ha q2
  cases hg : net.topo (net.place t).1 with
  | node g =>
    have hv := hwf.nodeAt ht hg
    obtain ⟨w, r1, r2, _⟩ := sTraverse_inv (hwf.nodeG hg) (nodeCb_keeps hwf t0 f hg st)
      (s := ⟨st, nx⟩) ⟨hi, hnx, Grow.refl _⟩ (v := (net.place t).2)
      ⟨hn, by
        unfold Passed; rw [hg]
        intro t' ht'; rw [hv] at ht'; cases ht'; exact ha⟩
      (by unfold G.vertexExists; rw [hv]; rfl)
    exact ⟨w, r1, r2⟩
  | bus g =>
    obtain ⟨ts, hv, hm⟩ := hwf.busAt ht hg
    simp only [hv]
    have hts : ∀ x ∈ ts, x ∈ net.terms ∧ net.place x = ((net.place t).1, (net.place t).2) := by
      obtain ⟨ts', h1, h2⟩ := hwf.busObj hg (n := (net.place t).2) (by rw [hv]; simp)
      rw [hv] at h1; cases h1; exact h2
    have hat : At net t0 (net.place t).1 ⟨st, nx⟩ (net.place t).2 := ⟨hn, by
      unfold Passed; rw [hg]
      intro ts' ht'; rw [hv] at ht'; cases ht'; exact Or.inr ⟨t, hm, ha⟩⟩
    obtain ⟨w1, s1, s2, s3⟩ := sameBus_inv hwf t0 f hg st t ts hts ⟨st, nx⟩ ⟨hi, hnx, Grow.refl _⟩ hat
    rw [s1, Out.bind_ok]
    obtain ⟨w, r1, r2, _⟩ := sTraverse_inv (hwf.busG hg) (busCb_keeps hwf t0 f hg st) s2 s3
      (by unfold G.vertexExists; rw [hv]; rfl)
    exact ⟨w, r1, r2⟩

/-! ### The recursion over the terminals -/

/-- The number of terminals not traversed. -/
def unseen (net : Net) (st : St) : Nat := (net.terms.filter (fun t => t ∉ st.traversed)).length

theorem filter_len_mono {p q : Nat → Bool} {l : List Nat} (h : ∀ x ∈ l, p x = true → q x = true) :
    (l.filter p).length ≤ (l.filter q).length := by
  induction l with
  | nil => simp
  | cons a l ih =>
    have ih' := ih (fun x hx => h x (List.mem_cons_of_mem _ hx))
    simp only [List.filter_cons]
    cases hp : p a with
    | false => simp only [Bool.false_eq_true, if_false]; split <;> simp <;> omega
    | true => rw [h a (by simp) hp]; simp; omega

theorem filter_len_lt {p q : Nat → Bool} {l : List Nat} (h : ∀ x ∈ l, p x = true → q x = true) {a : Nat} (ha : a ∈ l)
    (hp : p a = false) (hq : q a = true) : (l.filter p).length < (l.filter q).length := by
  induction l with
  | nil => cases ha
  | cons b l ih =>
    have h' : ∀ x ∈ l, p x = true → q x = true := fun x hx => h x (List.mem_cons_of_mem _ hx)
    simp only [List.filter_cons]
    rcases List.mem_cons.mp ha with rfl | ha
    · have := filter_len_mono h'
      rw [hp, hq]; simp; omega
    · have := ih h' ha
      cases hpb : p b with
      | false => simp only [Bool.false_eq_true, if_false]; split <;> simp <;> omega
      | true => rw [h b (by simp) hpb]; simp; omega

theorem unseen_mono (net : Net) {st st' : St} (h : Grow st st') : unseen net st' ≤ unseen net st := by
  refine filter_len_mono ?_
  intro x _ hx
  simp only [decide_eq_true_eq] at hx ⊢
  exact fun hh => hx (h.trav x hh)

theorem unseen_mark (net : Net) {st : St} {t : Nat} (ht : t ∈ net.terms) (hn : t ∉ st.traversed) :
    unseen net (st.mark t) < unseen net st := by
  refine filter_len_lt ?_ ht ?_ ?_
  · intro x _ hx
    simp only [decide_eq_true_eq] at hx ⊢
    exact fun hh => hx (mem_ins.mpr (Or.inr hh))
  · simp only [decide_eq_false_iff_not, Decidable.not_not]
    exact mem_ins.mpr (Or.inl rfl)
  · simpa using hn

theorem each_inv {net : Net} {t0 : Nat} {k : Nat} {rec : Nat → St → Out St}
    (hrec : ∀ t st, t ∈ net.terms → Inv net t0 st → Near net t0 st.log (net.place t) → unseen net st < k →
      ∃ st', rec t st = .ok st' ∧ Inv net t0 st' ∧ Grow st st') (ts : List Nat) :
    ∀ st, (∀ t ∈ ts, t ∈ net.terms ∧ Near net t0 st.log (net.place t)) → Inv net t0 st → unseen net st < k →
      ∃ st', each rec ts st = .ok st' ∧ Inv net t0 st' ∧ Grow st st' := by
  induction ts with
  | nil => intro st _ hi _; exact ⟨st, rfl, hi, Grow.refl _⟩
  | cons t ts ih =>
    intro st hts hi hk
    obtain ⟨h1, h2⟩ := hts t (by simp)
    obtain ⟨st1, r1, r2, r3⟩ := hrec t st h1 hi h2 hk
    have := unseen_mono net r3
    obtain ⟨st2, s1, s2, s3⟩ := ih st1
      (fun x hx => ⟨(hts x (List.mem_cons_of_mem _ hx)).1, (hts x (List.mem_cons_of_mem _ hx)).2.mono r3.log⟩) r2 (by omega)
    exact ⟨st2, by unfold each; rw [r1, Out.bind_ok, s1], s2, r3.trans s3⟩

theorem visit_inv {net : Net} (hwf : net.WF) (t0 : Nat) (f : Ask) {order : List Nat → List Nat}
    (hord : ∀ l x, x ∈ order l ↔ x ∈ l) (n : Nat) :
    ∀ t st, t ∈ net.terms → Inv net t0 st → Near net t0 st.log (net.place t) → unseen net st < n →
      ∃ st', visit net f order n t st = .ok st' ∧ Inv net t0 st' ∧ Grow st st' := by
  induction n with
  | zero => intro t st _ _ _ h; omega
  | succ n ih =>
    intro t st ht hi hn hk
    unfold visit
    by_cases hm : t ∈ st.traversed
    · rw [if_pos hm]; exact ⟨st, rfl, hi, Grow.refl _⟩
    · rw [if_neg hm]
      simp only []
      have hsub := ask_sub f st (.term t (net.flag t))
      have hi1 := ask_inv f hi (q := .term t (net.flag t)) ⟨ht, rfl, hn⟩
      cases hb : (st.ask f (.term t (net.flag t))).2 with
      | false => simp only [Bool.false_eq_true, if_false]; exact ⟨_, rfl, hi1, ask_grow _ _ _⟩
      | true =>
        have hy : Accepted (st.ask f (.term t (net.flag t))).1.log t := ⟨_, ask_yes hb⟩
        simp only [if_true]
        obtain ⟨w, r1, r2⟩ := inLevel_inv hwf t0 f ht (st := (st.ask f (.term t (net.flag t))).1.mark t)
          (mark_inv hi1 ht hy) (hn.mono hsub) hy
        rw [r1, Out.bind_ok]
        have h1 : unseen net ((st.ask f (.term t (net.flag t))).1.mark t) < unseen net st :=
          unseen_mark net (st := (st.ask f (.term t (net.flag t))).1) ht hm
        have h2 := unseen_mono net r2.grow
        obtain ⟨st', s1, s2, s3⟩ := each_inv ih (order w.next) w.st (by
          intro x hx
          obtain ⟨t', k1, k2, k3, k4⟩ := r2.next x ((hord _ _).mp hx)
          exact ⟨hwf.mem k1 k4.2.1, .across k2 k3 k4⟩) r2.inv (by omega)
        exact ⟨st', s1, s2, (((ask_grow f st _).trans (mark_grow _ t)).trans r2.grow).trans s3⟩

end Verif.Traverse
