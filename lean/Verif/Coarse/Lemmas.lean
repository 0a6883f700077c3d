import Verif.Coarse.Spec
import Verif.XmlNet.NetProps
import Verif.XmlNet.AcceptProps

/-!
Helper lemmas of C89.
-/

namespace Verif.Coarse

open Verif Verif.Xml Verif.XmlNet

/-! ### Terminals -/

theorem onBus_iff {b c : Option String} {q : Place} : onBus b c = some q ↔ ∃ x, c = some x ∧ ((b = some x ∧ q = .bus x true) ∨ (b = none ∧ q = .bus x false)) := by
  cases b with
  | none =>
    cases c with
    | none => simp [onBus]
    | some c => simp [onBus, eq_comm]
  | some b =>
    cases c with
    | none => simp [onBus]
    | some c =>
      by_cases h : b = c
      · subst h; simp [onBus, eq_comm]
      · simp [onBus, h]

theorem sits_unique {L : Level} {W : Views} {vl : String} {p q r : Place} (h : located L W vl p = some q) (h' : located L W vl p = some r) : q = r := by
  rw [h] at h'
  exact Option.some.inj h'

/-- The same movement of the terminals that an equipment has. -/
theorem termTo_congr {f g : String → Place → Place} {vl : String} {t : Term} (h : f vl t.place = g vl t.place) : termTo f vl t = termTo g vl t := by
  unfold termTo
  rw [h]

theorem sideTo_congr {f g : String → Place → Place} {s : Side} (h : f s.vl s.term.place = g s.vl s.term.place) : sideTo f s = sideTo g s := by
  unfold sideTo
  rw [termTo_congr h]

theorem legTo_congr {f g : String → Place → Place} {y : Leg} (h : f y.side.vl y.side.term.place = g y.side.vl y.side.term.place) : legTo f y = legTo g y := by
  unfold legTo
  rw [sideTo_congr h]

theorem map_congr_mem {α β : Type} {f g : α → β} {l : List α} (h : ∀ x ∈ l, f x = g x) : l.map f = l.map g := List.map_congr_left h

section congr
variable {T : Type} {x : Net T} {f g : String → Place → Place} (h : ∀ vl p, Sided x vl p → f vl p = g vl p)
include h

theorem equipTo_congr {s : Substation} (hs : s ∈ x.subs) {v : VL} (hv : v ∈ s.vls) : equipTo f v.ident.head.id v.equip = equipTo g v.ident.head.id v.equip := by
  have h1 : ∀ {t : Term}, Sided x v.ident.head.id t.place → termTo f v.ident.head.id t = termTo g v.ident.head.id t := fun ht => termTo_congr (h _ _ ht)
  unfold equipTo
  rw [map_congr_mem (l := v.equip.gens) fun y hy => by rw [h1 (.generator hs hv hy)], map_congr_mem (l := v.equip.bats) fun y hy => by rw [h1 (.battery hs hv hy)],
    map_congr_mem (l := v.equip.loads) fun y hy => by rw [h1 (.load hs hv hy)], map_congr_mem (l := v.equip.shs) fun y hy => by rw [h1 (.shunt hs hv hy)],
    map_congr_mem (l := v.equip.dls) fun y hy => by rw [h1 (.danglingLine hs hv hy)], map_congr_mem (l := v.equip.svcs) fun y hy => by rw [h1 (.svc hs hv hy)],
    map_congr_mem (l := v.equip.vscs) fun y hy => by rw [h1 (.vsc hs hv hy)], map_congr_mem (l := v.equip.lccs) fun y hy => by rw [h1 (.lcc hs hv hy)]]

theorem tw2s_congr {s : Substation} (hs : s ∈ x.subs) : s.tw2s.map (tw2To f) = s.tw2s.map (tw2To g) :=
  map_congr_mem fun y hy => by
    unfold tw2To
    rw [sideTo_congr (h _ _ (.transformer2 hs hy (.inl rfl))), sideTo_congr (h _ _ (.transformer2 hs hy (.inr rfl)))]

theorem tw3s_congr {s : Substation} (hs : s ∈ x.subs) : s.tw3s.map (tw3To f) = s.tw3s.map (tw3To g) :=
  map_congr_mem fun y hy => by
    unfold tw3To
    rw [legTo_congr (h _ _ (.transformer3 hs hy (.inl rfl))), legTo_congr (h _ _ (.transformer3 hs hy (.inr (.inl rfl)))), legTo_congr (h _ _ (.transformer3 hs hy (.inr (.inr rfl))))]

theorem lines_congr : x.lines.map (lineTo f) = x.lines.map (lineTo g) :=
  map_congr_mem fun y hy => by
    cases y with
    | line y => simp only [lineTo, sideTo_congr (h _ _ (.line hy (.inl rfl))), sideTo_congr (h _ _ (.line hy (.inr rfl)))]
    | tie y => simp only [lineTo, sideTo_congr (h _ _ (.tieLine hy (.inl rfl))), sideTo_congr (h _ _ (.tieLine hy (.inr rfl)))]

end congr

/-- The terminals of the model are those of the specification. -/
theorem mem_netEnds {T : Type} {x : Net T} {vl : String} {p : Place} : (∃ e ∈ netEnds x, e.vl = vl ∧ e.place = p) ↔ Sided x vl p := by
  constructor
  · rintro ⟨e, he, rfl, rfl⟩
    simp only [netEnds, List.mem_append, List.mem_flatMap] at he
    rcases he with ⟨s, hs, ⟨v, hv, i, hi, he⟩ | ⟨i, hi, he⟩ | ⟨i, hi, he⟩⟩ | ⟨i, hi, he⟩
    · simp only [equipItems, List.mem_append, List.mem_map] at hi
      rcases hi with ⟨y, hy, rfl⟩ | ⟨y, hy, rfl⟩ | ⟨y, hy, rfl⟩ | ⟨y, hy, rfl⟩ | ⟨y, hy, rfl⟩ | ⟨y, hy, rfl⟩ | ⟨y, hy, rfl⟩ | ⟨y, hy, rfl⟩ <;>
        simp only [injection, List.mem_singleton] at he <;> subst he
      · exact .generator hs hv hy
      · exact .battery hs hv hy
      · exact .load hs hv hy
      · exact .shunt hs hv hy
      · exact .danglingLine hs hv hy
      · exact .svc hs hv hy
      · exact .vsc hs hv hy
      · exact .lcc hs hv hy
    · obtain ⟨y, hy, rfl⟩ := List.mem_map.1 hi
      simp only [tw2Item, branch, List.map_cons, List.map_nil, List.mem_cons, List.not_mem_nil, or_false] at he
      rcases he with rfl | rfl
      · exact .transformer2 hs hy (.inl rfl)
      · exact .transformer2 hs hy (.inr rfl)
    · obtain ⟨y, hy, rfl⟩ := List.mem_map.1 hi
      simp only [tw3Item, branch, List.map_cons, List.map_nil, List.mem_cons, List.not_mem_nil, or_false] at he
      rcases he with rfl | rfl | rfl
      · exact .transformer3 hs hy (.inl rfl)
      · exact .transformer3 hs hy (.inr (.inl rfl))
      · exact .transformer3 hs hy (.inr (.inr rfl))
    · obtain ⟨y, hy, rfl⟩ := List.mem_map.1 hi
      cases y with
      | line y =>
        simp only [lineItem, branch, List.map_cons, List.map_nil, List.mem_cons, List.not_mem_nil, or_false] at he
        rcases he with rfl | rfl
        · exact .line hy (.inl rfl)
        · exact .line hy (.inr rfl)
      | tie y =>
        simp only [lineItem, branch, List.map_cons, List.map_nil, List.mem_cons, List.not_mem_nil, or_false] at he
        rcases he with rfl | rfl
        · exact .tieLine hy (.inl rfl)
        · exact .tieLine hy (.inr rfl)
  · have inj : ∀ {s v i e}, s ∈ x.subs → v ∈ s.vls → i ∈ equipItems v.ident.head.id v.equip → e ∈ i.ends → e ∈ netEnds x := by
      intro s v i e hs hv hi he
      simp only [netEnds, List.mem_append, List.mem_flatMap]
      exact .inl ⟨s, hs, .inl ⟨v, hv, i, hi, he⟩⟩
    have t2 : ∀ {s t e}, s ∈ x.subs → t ∈ s.tw2s → e ∈ (tw2Item s.ident.head.id t).ends → e ∈ netEnds x := by
      intro s t e hs ht he
      simp only [netEnds, List.mem_append, List.mem_flatMap]
      exact .inl ⟨s, hs, .inr (.inl ⟨_, List.mem_map_of_mem ht, he⟩)⟩
    have t3 : ∀ {s t e}, s ∈ x.subs → t ∈ s.tw3s → e ∈ (tw3Item s.ident.head.id t).ends → e ∈ netEnds x := by
      intro s t e hs ht he
      simp only [netEnds, List.mem_append, List.mem_flatMap]
      exact .inl ⟨s, hs, .inr (.inr ⟨_, List.mem_map_of_mem ht, he⟩)⟩
    have li : ∀ {l e}, l ∈ x.lines → e ∈ (lineItem l).ends → e ∈ netEnds x := by
      intro l e hl he
      simp only [netEnds, List.mem_append, List.mem_flatMap]
      exact .inr ⟨_, List.mem_map_of_mem hl, he⟩
    intro h
    cases h with
    | generator hs hv hg => exact ⟨_, inj hs hv (by simp only [equipItems, List.mem_append]; exact .inl (List.mem_map_of_mem hg)) List.mem_cons_self, rfl, rfl⟩
    | battery hs hv hg => exact ⟨_, inj hs hv (by simp only [equipItems, List.mem_append]; exact .inr (.inl (List.mem_map_of_mem hg))) List.mem_cons_self, rfl, rfl⟩
    | load hs hv hg => exact ⟨_, inj hs hv (by simp only [equipItems, List.mem_append]; exact .inr (.inr (.inl (List.mem_map_of_mem hg)))) List.mem_cons_self, rfl, rfl⟩
    | shunt hs hv hg => exact ⟨_, inj hs hv (by simp only [equipItems, List.mem_append]; exact .inr (.inr (.inr (.inl (List.mem_map_of_mem hg))))) List.mem_cons_self, rfl, rfl⟩
    | danglingLine hs hv hg => exact ⟨_, inj hs hv (by simp only [equipItems, List.mem_append]; exact .inr (.inr (.inr (.inr (.inl (List.mem_map_of_mem hg)))))) List.mem_cons_self, rfl, rfl⟩
    | svc hs hv hg => exact ⟨_, inj hs hv (by simp only [equipItems, List.mem_append]; exact .inr (.inr (.inr (.inr (.inr (.inl (List.mem_map_of_mem hg))))))) List.mem_cons_self, rfl, rfl⟩
    | vsc hs hv hg => exact ⟨_, inj hs hv (by simp only [equipItems, List.mem_append]; exact .inr (.inr (.inr (.inr (.inr (.inr (.inl (List.mem_map_of_mem hg)))))))) List.mem_cons_self, rfl, rfl⟩
    | lcc hs hv hg => exact ⟨_, inj hs hv (by simp only [equipItems, List.mem_append]; exact .inr (.inr (.inr (.inr (.inr (.inr (.inr (List.mem_map_of_mem hg)))))))) List.mem_cons_self, rfl, rfl⟩
    | transformer2 hs ht hy =>
      rcases hy with rfl | rfl
      · exact ⟨_, t2 hs ht List.mem_cons_self, rfl, rfl⟩
      · exact ⟨_, t2 hs ht (List.mem_cons_of_mem _ List.mem_cons_self), rfl, rfl⟩
    | transformer3 hs ht hy =>
      rcases hy with rfl | rfl | rfl
      · exact ⟨_, t3 hs ht List.mem_cons_self, rfl, rfl⟩
      · exact ⟨_, t3 hs ht (List.mem_cons_of_mem _ List.mem_cons_self), rfl, rfl⟩
      · exact ⟨_, t3 hs ht (List.mem_cons_of_mem _ (List.mem_cons_of_mem _ List.mem_cons_self)), rfl, rfl⟩
    | line hl hy =>
      rcases hy with rfl | rfl
      · exact ⟨_, li hl List.mem_cons_self, rfl, rfl⟩
      · exact ⟨_, li hl (List.mem_cons_of_mem _ List.mem_cons_self), rfl, rfl⟩
    | tieLine hl hy =>
      rcases hy with rfl | rfl
      · exact ⟨_, li hl List.mem_cons_self, rfl, rfl⟩
      · exact ⟨_, li hl (List.mem_cons_of_mem _ List.mem_cons_self), rfl, rfl⟩

theorem mem_busbarNames {T : Type} {x : Net T} {n : String} : n ∈ busbarNames x ↔ Busbar x n := by
  simp only [busbarNames, Busbar, List.mem_flatMap]
  constructor
  · rintro ⟨s, hs, v, hv, hn⟩
    refine ⟨s, hs, v, hv, ?_⟩
    cases ht : v.topo with
    | bus buses sws => rw [ht] at hn; cases hn
    | node bbs sws conns calcs =>
      rw [ht] at hn
      obtain ⟨b, hb, hn⟩ := List.mem_flatMap.1 hn
      exact ⟨bbs, sws, conns, calcs, rfl, b, hb, List.mem_cons.1 hn⟩
  · rintro ⟨s, hs, v, hv, bbs, sws, conns, calcs, ht, b, hb, hn⟩
    refine ⟨s, hs, v, hv, ?_⟩
    rw [ht]
    exact List.mem_flatMap.2 ⟨b, hb, List.mem_cons.2 hn⟩

/-! ### Lists of elements that are read as something else -/

theorem list_as {σ α β : Type} {n : String} {w : α → Out (List Cmd)} {read : List Tok → Out (β × List Tok)} (B : List Cmd → σ → σ → Prop) (nil : ∀ s, B [] s s)
    (append : ∀ {cs ds s s' s''}, B cs s s' → B ds s' s'' → B (cs ++ ds) s s'') (get : σ → List β) (put : σ → List β → σ)
    (item : ∀ {as body a}, RoundTrip (elemCmds n as body) read a → ∀ s, B (elemCmds n as body) s (put s (get s ++ [a])))
    (gp : ∀ s l, get (put s l) = l) (pp : ∀ s l m, put (put s l) m = put s m) (pg : ∀ s, put s (get s) = s) (g : α → β) :
    ∀ (xs : List α) (s : σ), (∀ x ∈ xs, ElemRT n (w x) read (g x)) → ∃ cs, writeList w xs = .ok cs ∧ B cs s (put s (get s ++ xs.map g)) := by
  intro xs
  induction xs with
  | nil => intro s _; exact ⟨[], rfl, by simpa [pg] using nil s⟩
  | cons x xs ih =>
    intro s h
    obtain ⟨as, body, h1, h2⟩ := h x List.mem_cons_self
    obtain ⟨cs, h3, h4⟩ := ih (put s (get s ++ [g x])) fun y hy => h y (List.mem_cons_of_mem _ hy)
    refine ⟨elemCmds n as body ++ cs, by simp only [writeList, h1, h3, Out.monad_bind_ok], ?_⟩
    have := append (item h2 s) h4
    rwa [gp, pp, List.append_assoc] at this

theorem push_as {σ α β : Type} {A : Anon} {h : Handler σ} {root n : String} {w : α → Out (List Cmd)} {read : List Tok → Out (β × List Tok)} (get : σ → List β)
    (put : σ → List β → σ) (hh : h n = some (pushCb read fun s x => put s (get s ++ [x]))) (gp : ∀ s l, get (put s l) = l) (pp : ∀ s l m, put (put s l) m = put s m) (pg : ∀ s, put s (get s) = s)
    (g : α → β) (xs : List α) (s : σ) (hx : ∀ x ∈ xs, ElemRT n (w x) read (g x)) : ∃ cs, writeList w xs = .ok cs ∧ Body A h root cs s (put s (get s ++ xs.map g)) :=
  list_as (Body A h root) (body_nil _ _ _) (fun h1 h2 => h1.append h2) get put
    (fun hrt s => body_item hrt hh fun toks r hr => by simp only [pushCb, hr, Out.monad_bind_ok]) gp pp pg g xs s hx

theorem ppush_as {σ α β : Type} {h : Handler σ} {root n : String} {w : α → Out (List Cmd)} {read : List Tok → Out (β × List Tok)} (get : σ → List β)
    (put : σ → List β → σ) (hh : h n = some (pushCb read fun s x => put s (get s ++ [x]))) (gp : ∀ s l, get (put s l) = l) (pp : ∀ s l m, put (put s l) m = put s m) (pg : ∀ s, put s (get s) = s)
    (g : α → β) (xs : List α) (s : σ) (hx : ∀ x ∈ xs, ElemRT n (w x) read (g x)) : ∃ cs, writeList w xs = .ok cs ∧ PBody h root cs s (put s (get s ++ xs.map g)) :=
  list_as (PBody h root) (pbody_nil _ _) (fun h1 h2 => h1.append h2) get put
    (fun hrt s => pbody_item hrt hh fun toks r hr => by simp only [pushCb, hr, Out.monad_bind_ok]) gp pp pg g xs s hx

/-! ### Voltage levels at a level -/

theorem minLevel_whole {node : Bool} {L : Level} : minLevel node L = (if node then .nodeBreaker else .busBreaker) ↔ Whole L node := by
  cases L <;> cases node <;> simp [minLevel, Level.rank, Whole]

theorem topo_at_body {K : XCodec} (hK : K.Integers) {A : Anon} {L : Level} {W : Views} {vl : String} {t : Topo} (h : TopoOk K A (topoAt W vl L t))
    (hk : L = .busBreaker → t.isNode = true → ∀ s ∈ (W.breaker vl).sws, ElemRT "switch" (writeVSw A s) (readBSw A) s.plain) :
    ∃ cs, writeTopoAt K A L W vl t = .ok cs ∧ Body A (vlSub K A) "voltageLevel" cs noVlSub ((topoAt W vl L t).sub noEquip) := by
  cases L with
  | nodeBreaker =>
    have e : writeTopoAt K A .nodeBreaker W vl t = writeTopo K A t := by
      cases t <;> rfl
    rw [e]
    exact topo_body hK h
  | busBreaker =>
    cases t with
    | bus buses sws => exact topo_body hK h
    | node bbs nsws conns calcs =>
      obtain ⟨h1, h2⟩ := h
      have hk := hk rfl rfl
      show ∃ cs, writeBreakerView K A (W.breaker vl) = .ok cs ∧ _
      obtain ⟨c1, w1, b1⟩ := ppush_list (h := busTopoSub K A) (root := "busBreakerTopology") (w := writeBus K A) VlSub.buses (fun s l => { s with buses := l }) rfl (fun _ _ => rfl) (fun _ _ _ => rfl)
        (fun _ => rfl) (W.breaker vl).buses noVlSub fun x hx => bus_round_trip_partial (h1 x hx).1 (h1 x hx).2.1 (h1 x hx).2.2
      obtain ⟨c2, w2, b2⟩ := ppush_as (h := busTopoSub K A) (root := "busBreakerTopology") (w := writeVSwIn A ((W.breaker vl).sws.map fun y => y.ident.head.id)) VlSub.bsws (fun s l => { s with bsws := l }) rfl
        (fun _ _ => rfl) (fun _ _ _ => rfl) (fun _ => rfl) VSw.plain (W.breaker vl).sws ⟨[], [], [], [], (W.breaker vl).buses, [], noEquip⟩ fun x hx => by
          have hc : writeVSwIn A ((W.breaker vl).sws.map fun y => y.ident.head.id) x = writeVSw A x := by
            have hm : ((W.breaker vl).sws.map fun y => y.ident.head.id).contains (A.anon x.ident.head.id) = true := by
              rw [List.contains_iff_mem]
              have := (h2 x.plain (List.mem_map_of_mem hx)).2
              rw [List.map_map] at this
              exact this
            simp only [writeVSwIn, hm, Bool.not_true, check_false, Out.monad_bind_ok]
          rw [hc]
          exact hk x hx
      refine ⟨elemCmds "busBreakerTopology" [] (c1 ++ c2), by simp only [writeBreakerView, w1, w2, Out.monad_bind_ok], ?_⟩
      refine body_item (read := readPlain "busBreakerTopology" (fun _ => .ok ()) (busTopoSub K A) noVlSub fun _ s => .ok s)
        (a := ⟨[], [], [], [], (W.breaker vl).buses, (W.breaker vl).sws.map VSw.plain, noEquip⟩) ?_ rfl fun toks r hr => hr
      exact readPlain_rt (fun _ _ => rfl) (b1.append b2) rfl
  | busBranch =>
    obtain ⟨h1, h2⟩ := h
    have e : writeTopoAt K A .busBranch W vl t = writeBranchView K A (W.branch vl) := by
      cases t <;> rfl
    rw [e]
    obtain ⟨c1, w1, b1⟩ := ppush_list (h := busTopoSub K A) (root := "busBreakerTopology") (w := writeBus K A) VlSub.buses (fun s l => { s with buses := l }) rfl (fun _ _ => rfl) (fun _ _ _ => rfl)
      (fun _ => rfl) (W.branch vl).buses noVlSub fun x hx => bus_round_trip_partial (h1 x hx).1 (h1 x hx).2.1 (h1 x hx).2.2
    refine ⟨elemCmds "busBreakerTopology" [] c1, by simp only [writeBranchView, w1, Out.monad_bind_ok], ?_⟩
    refine body_item (read := readPlain "busBreakerTopology" (fun _ => .ok ()) (busTopoSub K A) noVlSub fun _ s => .ok s) (a := ⟨[], [], [], [], (W.branch vl).buses, [], noEquip⟩) ?_ rfl fun toks r hr => hr
    exact readPlain_rt (fun _ _ => rfl) b1 rfl

end Verif.Coarse
