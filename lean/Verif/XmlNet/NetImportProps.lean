import Verif.XmlNet.NetValid
import Verif.XmlNet.NetProps
import Verif.XmlNet.ImportProps

/-!
C71: whatever the document, a network that is read contains only what the adders accept.
-/

namespace Verif.XmlNet

open Verif Verif.Xml

section push
variable {σ : Type} {P : σ → Prop}

theorem pushCb_keeps {α : Type} {Q : α → Prop} {rd : List Tok → Out (α × List Tok)} {push : σ → α → σ} (hrd : ∀ toks x r, rd toks = .ok (x, r) → Q x)
    (hp : ∀ s x, P s → Q x → P (push s x)) (s : σ) (toks : List Tok) (s' : σ) (r : List Tok) (h : P s) (he : pushCb rd push s toks = .ok (s', r)) : P s' := by
  unfold pushCb at he
  obtain ⟨x, hx, he⟩ := Out.bind_eq_ok.1 he
  simp only [Out.ok.injEq, Prod.mk.injEq] at he
  exact he.1 ▸ hp s x.1 h (hrd _ _ _ (show _ = Out.ok (x.1, x.2) from hx))

end push

theorem mem_snoc {α : Type} {Q : α → Prop} {l : List α} {x : α} (hl : ∀ y ∈ l, Q y) (hx : Q x) : ∀ y ∈ l ++ [x], Q y := by
  intro y hy
  rcases List.mem_append.1 hy with h | h
  · exact hl y h
  · simp only [List.mem_singleton] at h; exact h ▸ hx

theorem checkVoltage_valid {v : Dbl} {u : Unit} (h : checkVoltage v = .ok u) : IsSet v → Dbl.le 0 v = true := by
  intro hv
  simp only [checkVoltage, check_ok_iff, hv, Bool.not_false, Bool.true_and] at h
  exact range_valid rfl hv h

theorem readBus_valid {K : XCodec} {A : Anon} {toks rest : List Tok} {x : Bus} (h : readBus K A toks = .ok (x, rest)) : BusValid x := by
  obtain ⟨i, a, s, hi, ha, _, hm⟩ := readElem_ok keeps_noSub trivial h
  simp only [readBusRoot, bind_ok_iff] at ha
  obtain ⟨v, _, an, _, _, hv, ha⟩ := ha
  simp only [Out.ok.injEq] at ha hm
  subst ha hm
  exact ⟨hi, checkVoltage_valid hv⟩

theorem readBbs_valid {K : XCodec} {A : Anon} {toks rest : List Tok} {x : Bbs} (h : readBbs K A toks = .ok (x, rest)) : IdentValid x.ident := by
  obtain ⟨i, a, s, hi, ha, _, hm⟩ := readElem_ok keeps_noSub trivial h
  simp only [Out.ok.injEq] at hm
  subst hm
  exact hi

theorem readNSw_valid {K : XCodec} {A : Anon} {toks rest : List Tok} {x : NSw} (h : readNSw K A toks = .ok (x, rest)) : NSwValid x := by
  obtain ⟨i, a, s, hi, ha, _, hm⟩ := readElem_ok keeps_noSub trivial h
  simp only [readNSwRoot, bind_ok_iff] at ha
  obtain ⟨o, _, k, _, kind, hk, r, _, n1, _, n2, _, ha⟩ := ha
  simp only [Out.ok.injEq] at ha hm
  subst ha hm
  exact ⟨hi, enum_valid hk⟩

theorem readBSw_valid {A : Anon} {toks rest : List Tok} {x : BSw} (h : readBSw A toks = .ok (x, rest)) : BSwValid x := by
  obtain ⟨i, a, s, hi, ha, _, hm⟩ := readElem_ok keeps_noSub trivial h
  simp only [readBSwRoot, bind_ok_iff, check_ok_iff, beq_eq_false_iff_ne] at ha
  obtain ⟨o, _, b1, _, c1, _, b2, _, c2, _, _, h1, _, h2, ha⟩ := ha
  simp only [Out.ok.injEq] at ha hm
  subst ha hm
  exact ⟨hi, h1, h2⟩

/-- What the sub elements of a voltage level keep. -/
structure VlSubValid (s : VlSub) : Prop where
  bbs : ∀ x ∈ s.bbs, IdentValid x.ident
  nsws : ∀ x ∈ s.nsws, NSwValid x
  buses : ∀ x ∈ s.buses, BusValid x
  bsws : ∀ x ∈ s.bsws, BSwValid x
  equip : EquipValid s.equip

theorem busTopoSub_keeps {K : XCodec} {A : Anon} : Keeps (busTopoSub K A) VlSubValid := by
  intro n cb hcb
  unfold busTopoSub at hcb
  split at hcb
  · simp only [Option.some.injEq] at hcb
    exact hcb ▸ pushCb_keeps (fun _ _ _ h => readBus_valid h) fun s x hs hx => ⟨hs.bbs, hs.nsws, mem_snoc hs.buses hx, hs.bsws, hs.equip⟩
  split at hcb
  · simp only [Option.some.injEq] at hcb
    exact hcb ▸ pushCb_keeps (fun _ _ _ h => readBSw_valid h) fun s x hs hx => ⟨hs.bbs, hs.nsws, hs.buses, mem_snoc hs.bsws hx, hs.equip⟩
  · cases hcb

theorem nodeTopoSub_keeps {K : XCodec} {A : Anon} : Keeps (nodeTopoSub K A) VlSubValid := by
  intro n cb hcb
  unfold nodeTopoSub at hcb
  split at hcb
  · simp only [Option.some.injEq] at hcb
    exact hcb ▸ pushCb_keeps (fun _ _ _ h => readBbs_valid h) fun s x hs hx => ⟨mem_snoc hs.bbs hx, hs.nsws, hs.buses, hs.bsws, hs.equip⟩
  split at hcb
  · simp only [Option.some.injEq] at hcb
    exact hcb ▸ pushCb_keeps (fun _ _ _ h => readNSw_valid h) fun s x hs hx => ⟨hs.bbs, mem_snoc hs.nsws hx, hs.buses, hs.bsws, hs.equip⟩
  split at hcb
  · simp only [Option.some.injEq] at hcb
    exact hcb ▸ pushCb_keeps (Q := fun _ => True) (fun _ _ _ _ => trivial) fun s x hs _ => ⟨hs.bbs, hs.nsws, hs.buses, hs.bsws, hs.equip⟩
  split at hcb
  · simp only [Option.some.injEq] at hcb
    exact hcb ▸ pushCb_keeps (Q := fun _ => True) (fun _ _ _ _ => trivial) fun s x hs _ => ⟨hs.bbs, hs.nsws, hs.buses, hs.bsws, hs.equip⟩
  · cases hcb

theorem topoCb_keeps {root : String} {h : Handler VlSub} (hk : Keeps h VlSubValid) (s : VlSub) (toks : List Tok) (s' : VlSub) (r : List Tok) (hs : VlSubValid s)
    (he : topoCb root h s toks = .ok (s', r)) : VlSubValid s' := by
  obtain ⟨_, t, _, ht, he⟩ := readPlain_ok hk hs he
  simp only [Out.ok.injEq] at he
  exact he ▸ ht

theorem vlSub_keeps {K : XCodec} (hK : K.Doubles) {A : Anon} : Keeps (vlSub K A) VlSubValid := by
  intro n cb hcb
  unfold vlSub at hcb
  by_cases hn : n = "nodeBreakerTopology"
  · rw [if_pos hn] at hcb; simp only [Option.some.injEq] at hcb; exact hcb ▸ topoCb_keeps nodeTopoSub_keeps
  rw [if_neg hn] at hcb; clear hn
  by_cases hn : n = "busBreakerTopology"
  · rw [if_pos hn] at hcb; simp only [Option.some.injEq] at hcb; exact hcb ▸ topoCb_keeps busTopoSub_keeps
  rw [if_neg hn] at hcb; clear hn
  by_cases hn : n = "battery"
  · rw [if_pos hn] at hcb; simp only [Option.some.injEq] at hcb
    exact hcb ▸ pushCb_keeps (fun _ _ _ h => readBat_valid h) fun s x hs hx => ⟨hs.bbs, hs.nsws, hs.buses, hs.bsws, { hs.equip with bats := mem_snoc hs.equip.bats hx }⟩
  rw [if_neg hn] at hcb; clear hn
  by_cases hn : n = "generator"
  · rw [if_pos hn] at hcb; simp only [Option.some.injEq] at hcb
    exact hcb ▸ pushCb_keeps (fun _ _ _ h => readGen_valid h) fun s x hs hx => ⟨hs.bbs, hs.nsws, hs.buses, hs.bsws, { hs.equip with gens := mem_snoc hs.equip.gens hx }⟩
  rw [if_neg hn] at hcb; clear hn
  by_cases hn : n = "load"
  · rw [if_pos hn] at hcb; simp only [Option.some.injEq] at hcb
    exact hcb ▸ pushCb_keeps (fun _ _ _ h => readLoad_valid h) fun s x hs hx => ⟨hs.bbs, hs.nsws, hs.buses, hs.bsws, { hs.equip with loads := mem_snoc hs.equip.loads hx }⟩
  rw [if_neg hn] at hcb; clear hn
  by_cases hn : n = "shunt"
  · rw [if_pos hn] at hcb; simp only [Option.some.injEq] at hcb
    exact hcb ▸ pushCb_keeps (fun _ _ _ h => readSh_valid h) fun s x hs hx => ⟨hs.bbs, hs.nsws, hs.buses, hs.bsws, { hs.equip with shs := mem_snoc hs.equip.shs hx }⟩
  rw [if_neg hn] at hcb; clear hn
  by_cases hn : n = "danglingLine"
  · rw [if_pos hn] at hcb; simp only [Option.some.injEq] at hcb
    exact hcb ▸ pushCb_keeps (fun _ _ _ h => readDl_valid hK h) fun s x hs hx => ⟨hs.bbs, hs.nsws, hs.buses, hs.bsws, { hs.equip with dls := mem_snoc hs.equip.dls hx }⟩
  rw [if_neg hn] at hcb; clear hn
  by_cases hn : n = "staticVarCompensator"
  · rw [if_pos hn] at hcb; simp only [Option.some.injEq] at hcb
    exact hcb ▸ pushCb_keeps (fun _ _ _ h => readSvc_valid h) fun s x hs hx => ⟨hs.bbs, hs.nsws, hs.buses, hs.bsws, { hs.equip with svcs := mem_snoc hs.equip.svcs hx }⟩
  rw [if_neg hn] at hcb; clear hn
  by_cases hn : n = "vscConverterStation"
  · rw [if_pos hn] at hcb; simp only [Option.some.injEq] at hcb
    exact hcb ▸ pushCb_keeps (fun _ _ _ h => readVsc_valid h) fun s x hs hx => ⟨hs.bbs, hs.nsws, hs.buses, hs.bsws, { hs.equip with vscs := mem_snoc hs.equip.vscs hx }⟩
  rw [if_neg hn] at hcb; clear hn
  by_cases hn : n = "lccConverterStation"
  · rw [if_pos hn] at hcb; simp only [Option.some.injEq] at hcb
    exact hcb ▸ pushCb_keeps (fun _ _ _ h => readLcc_valid h) fun s x hs hx => ⟨hs.bbs, hs.nsws, hs.buses, hs.bsws, { hs.equip with lccs := mem_snoc hs.equip.lccs hx }⟩
  rw [if_neg hn] at hcb; clear hn
  cases hcb

theorem noVlSub_valid : VlSubValid noVlSub := by
  constructor
  all_goals first
    | (intro x hx; cases hx)
    | (constructor <;> (intro x hx; cases hx))

theorem checkLimits_valid {low high : Dbl} {u : Unit} (h : checkLimits low high = .ok u) :
    (IsSet low → Dbl.le 0 low = true) ∧ (IsSet high → Dbl.le 0 high = true) ∧ (IsSet low → IsSet high → Dbl.le low high = true) := by
  simp only [checkLimits, bind_ok_iff, check_ok_iff] at h
  obtain ⟨_, h1, _, h2, h3⟩ := h
  exact ⟨fun h => range_valid rfl h h1, fun h => range_valid rfl h h2, fun h h' => range_valid h h' h3⟩

/-- **C71** Voltage levels. -/
theorem readVL_valid {K : XCodec} (hK : K.Doubles) {A : Anon} {toks rest : List Tok} {x : VL} (h : readVL K A toks = .ok (x, rest)) : VLValid x := by
  obtain ⟨i, a, s, hi, ha, hs, hm⟩ := readElem_ok (vlSub_keeps hK) noVlSub_valid h
  simp only [readVLRoot, bind_ok_iff] at ha
  obtain ⟨nv, _, lo, _, hg, _, k, _, kind, _, _, hn, _, hl, ha⟩ := ha
  simp only [Out.ok.injEq] at ha
  subst ha
  have hl' := checkLimits_valid hl
  unfold buildVL at hm
  split at hm
  all_goals
    simp only [bind_ok_iff] at hm
    obtain ⟨_, _, hm⟩ := hm
    simp only [Out.ok.injEq] at hm
    subst hm
  · exact ⟨hi, checkNominal_valid hn, hl'.1, hl'.2.1, hl'.2.2, ⟨hs.bbs, hs.nsws⟩, hs.equip⟩
  · exact ⟨hi, checkNominal_valid hn, hl'.1, hl'.2.1, hl'.2.2, ⟨hs.buses, hs.bsws⟩, hs.equip⟩

theorem insertTag_mem {t u : String} : ∀ {l : List String}, u ∈ insertTag t l → u = t ∨ u ∈ l := by
  intro l
  induction l with
  | nil => intro h; simpa [insertTag] using h
  | cons v vs ih =>
    intro h
    unfold insertTag at h
    split at h
    · simpa using h
    · split at h
      · exact .inr h
      · rcases List.mem_cons.1 h with h | h
        · exact .inr (h ▸ List.mem_cons_self)
        · rcases ih h with h | h
          · exact .inl h
          · exact .inr (List.mem_cons_of_mem _ h)

theorem insertTag_increasing (t : String) : ∀ {l : List String}, l.Pairwise (· < ·) → (insertTag t l).Pairwise (· < ·) := by
  intro l
  induction l with
  | nil => intro _; simp [insertTag]
  | cons v vs ih =>
    intro h
    have hv := List.pairwise_cons.1 h
    unfold insertTag
    split
    · rename_i htv
      exact List.pairwise_cons.2 ⟨fun u hu => by
        rcases List.mem_cons.1 hu with h | h
        · exact h ▸ htv
        · exact String.lt_trans htv (hv.1 u h), h⟩
    · rename_i h1
      split
      · exact h
      · rename_i h2
        refine List.pairwise_cons.2 ⟨fun u hu => ?_, ih hv.2⟩
        rcases insertTag_mem hu with h | h
        · subst h
          rcases String.le_total u v with h | h
          · exact absurd (String.le_antisymm h (String.not_lt.1 h1)) h2
          · exact String.not_le.1 fun h' => h2 (String.le_antisymm h' h)
        · exact hv.1 u h

theorem readTags_increasing {A : Anon} : ∀ (ts acc : List String) (l : List String), acc.Pairwise (· < ·) → readTags A ts acc = .ok l → l.Pairwise (· < ·) := by
  intro ts
  induction ts with
  | nil => intro acc l h he; simp only [readTags, Out.ok.injEq] at he; exact he ▸ h
  | cons t ts ih =>
    intro acc l h he
    simp only [readTags, bind_ok_iff] at he
    obtain ⟨u, _, he⟩ := he
    exact ih _ _ (insertTag_increasing u h) he

theorem substationSub_keeps {K : XCodec} (hK : K.Doubles) {A : Anon} :
    Keeps (substationSub K A) fun s => (∀ v ∈ s.vls, VLValid v) ∧ (∀ t ∈ s.tw2s, Tw2Valid t) ∧ ∀ t ∈ s.tw3s, Tw3Valid t := by
  intro n cb hcb
  unfold substationSub at hcb
  split at hcb
  · simp only [Option.some.injEq] at hcb
    exact hcb ▸ pushCb_keeps (fun _ _ _ h => readVL_valid hK h) fun s x hs hx => ⟨mem_snoc hs.1 hx, hs.2⟩
  split at hcb
  · simp only [Option.some.injEq] at hcb
    exact hcb ▸ pushCb_keeps (fun _ _ _ h => readTw2_valid h) fun s x hs hx => ⟨hs.1, mem_snoc hs.2.1 hx, hs.2.2⟩
  split at hcb
  · simp only [Option.some.injEq] at hcb
    exact hcb ▸ pushCb_keeps (fun _ _ _ h => readTw3_valid h) fun s x hs hx => ⟨hs.1, hs.2.1, mem_snoc hs.2.2 hx⟩
  · cases hcb

theorem readCountry_valid {toks : List Tok} {o : Option Nat} (h : readCountry toks = .ok o) : ∀ c, o = some c → c < Enums.country.enumerators.length := by
  unfold readCountry at h
  obtain ⟨k, _, h⟩ := Out.bind_eq_ok.1 h
  split at h
  · simp only [Out.ok.injEq] at h; subst h; intro c hc; cases hc
  · obtain ⟨v, hv, rfl⟩ := map_ok_iff.1 h
    intro c hc
    simp only [Option.some.injEq] at hc
    exact hc ▸ enum_valid hv

theorem readGeoTags_valid {A : Anon} {toks : List Tok} {l : List String} (h : readGeoTags A toks = .ok l) : l.Pairwise (· < ·) := by
  unfold readGeoTags at h
  obtain ⟨k, _, h⟩ := Out.bind_eq_ok.1 h
  split at h
  · simp only [Out.ok.injEq] at h; subst h; exact List.Pairwise.nil
  · exact readTags_increasing _ _ _ List.Pairwise.nil h

/-- **C71** Substations. -/
theorem readSubstation_valid {K : XCodec} (hK : K.Doubles) {A : Anon} {toks rest : List Tok} {x : Substation} (h : readSubstation K A toks = .ok (x, rest)) : SubstationValid x := by
  obtain ⟨i, a, s, hi, ha, hs, hm⟩ := readElem_ok (substationSub_keeps hK) ⟨by simp, by simp, by simp⟩ h
  simp only [readSubstationRoot, bind_ok_iff] at ha
  obtain ⟨c, hc, t, _, g, hg, ha⟩ := ha
  simp only [Out.ok.injEq] at ha hm
  subst ha hm
  exact ⟨hi, readCountry_valid hc, readGeoTags_valid hg, hs.1, hs.2.1, hs.2.2⟩

def NetSubValid (s : NetSub) : Prop := (∀ x ∈ s.subs, SubstationValid x) ∧ (∀ x ∈ s.lines, AnyLineValid x) ∧ ∀ x ∈ s.hvdcs, HvdcValid x

theorem netSub_keeps {K : XCodec} (hK : K.Doubles) {A : Anon} : Keeps (netSub K A) NetSubValid := by
  intro n cb hcb
  unfold netSub at hcb
  split at hcb
  · simp only [Option.some.injEq] at hcb
    exact hcb ▸ pushCb_keeps (fun _ _ _ h => readSubstation_valid hK h) fun s x hs hx => ⟨mem_snoc hs.1 hx, hs.2⟩
  split at hcb
  · simp only [Option.some.injEq] at hcb
    exact hcb ▸ pushCb_keeps (fun _ _ _ h => readLine_valid h) fun s x hs hx => ⟨hs.1, mem_snoc hs.2.1 hx, hs.2.2⟩
  split at hcb
  · simp only [Option.some.injEq] at hcb
    exact hcb ▸ pushCb_keeps (fun _ _ _ h => readTie_valid h) fun s x hs hx => ⟨hs.1, mem_snoc hs.2.1 hx, hs.2.2⟩
  split at hcb
  · simp only [Option.some.injEq] at hcb
    exact hcb ▸ pushCb_keeps (fun _ _ _ h => readHvdc_valid h) fun s x hs hx => ⟨hs.1, hs.2.1, mem_snoc hs.2.2 hx⟩
  · cases hcb

/-- The head of an identifiable is not changed by its sub elements. -/
theorem elemCb_head {σ : Type} {A : Anon} {h : Handler σ} {x x' : Ident × σ} {toks r : List Tok} (he : elemCb A h x toks = .ok (x', r)) : x'.1.head = x.1.head := by
  unfold elemCb at he
  obtain ⟨n, _, he⟩ := Out.bind_eq_ok.1 he
  cases hn : h n with
  | some cb =>
    rw [hn] at he
    obtain ⟨y, _, he⟩ := Out.bind_eq_ok.1 he
    simp only [Out.ok.injEq, Prod.mk.injEq] at he
    obtain ⟨rfl, rfl⟩ := he
    rfl
  | none =>
    rw [hn] at he
    obtain ⟨y, hy, he⟩ := Out.bind_eq_ok.1 he
    simp only [Out.ok.injEq, Prod.mk.injEq] at he
    obtain ⟨rfl, rfl⟩ := he
    unfold identCb at hy
    simp only [bind_ok_iff] at hy
    obtain ⟨n, _, hy⟩ := hy
    split at hy
    · simp only [bind_ok_iff] at hy
      obtain ⟨k, _, v, _, hy⟩ := hy
      simp only [Out.ok.injEq] at hy
      exact hy ▸ rfl
    · split at hy
      · simp only [bind_ok_iff] at hy
        obtain ⟨t, _, c, _, a, _, z, hz, hy⟩ := hy
        simp only [Out.ok.injEq] at hy
        subst hy
        unfold Ident.addAlias at hz
        split at hz
        · cases hz
        · split at hz <;> (simp only [Out.ok.injEq] at hz; exact hz ▸ rfl)
      · cases hy

/-- **C71** Whatever the document, a network that is read contains only what the adders accept. -/
theorem read_network_valid {T : Type} {K : XCodec} (hK : K.Doubles) {A : Anon} {D : Dates T} {toks : List Tok} {x : Net T} (h : readNet K A D toks = .ok x) :
    NetValid x ∧ ∃ s, D.parse s = .ok x.date := by
  simp only [readNet, bind_ok_iff, check_ok_iff, Bool.or_eq_false_iff, beq_eq_false_iff_ne, decide_eq_false_iff_not, Int.not_lt] at h
  obtain ⟨id, _, f, _, d, _, c, _, _, hc, t, ht, r, hr, h⟩ := h
  simp only [Out.ok.injEq] at h
  subst h
  have hr' : readUntilEnd (elemCb A (netSub K A)) "network" (⟨⟨id, id, false⟩, [], []⟩, ⟨[], [], []⟩) toks = .ok (r.1, r.2) := hr
  have h1 := readUntilEnd_inv (P := fun x : Ident × NetSub => IdentValid x.1 ∧ NetSubValid x.2) (fun s toks s' r hs he => elemCb_valid (netSub_keeps hK) hs he)
    ⟨⟨by simp, by simp, by simp, by simp⟩, by simp, by simp, by simp⟩ hr'
  have h2 := readUntilEnd_inv (P := fun x : Ident × NetSub => x.1.head = ⟨id, id, false⟩) (fun s toks s' r hs he => (elemCb_head he).trans hs) rfl hr'
  exact ⟨⟨h1.1, (by rw [h2]; exact hc.1.1), (by rw [h2]), (by rw [h2]), hc.1.2, hc.2, h1.2.1, h1.2.2.1, h1.2.2.2⟩, c, ht⟩

/-- A document with a voltage level, a bus and a load. -/
def smallDoc : List Tok :=
  [.start "network" [("id", "N"), ("sourceFormat", "test"), ("caseDate", "2020"), ("forecastDistance", "x")] false,
    .start "substation" [("id", "S"), ("country", "FR"), ("geographicalTags", "b,a,b")] false,
    .start "voltageLevel" [("id", "V"), ("nominalV", "1"), ("lowVoltageLimit", "1"), ("topologyKind", "BUS_BREAKER")] false,
    .start "busBreakerTopology" [] false, .start "bus" [("id", "B"), ("v", "1")] true, .stop "busBreakerTopology",
    .start "load" [("id", "L"), ("p0", "1"), ("q0", "1"), ("bus", "B"), ("connectableBus", "B")] true,
    .stop "voltageLevel", .stop "substation", .stop "network"]

example : ∃ x, readNet tiny Anon.none textDates smallDoc = .ok x ∧ NetValid x ∧ x.subs.map (fun s => s.vls.length) = [1] :=
  ⟨_, rfl, (read_network_valid (toks := smallDoc) (A := Anon.none) (D := textDates) tiny_doubles rfl).1, rfl⟩

end Verif.XmlNet
