import Verif.ReadBack.Classes
import Verif.XmlNet.AcceptProps
import Verif.Setters.Props

/-!
C95: a network that the code lets exist, and that a document has room for, is read back from its document.
-/

namespace Verif.ReadBack

open Verif Verif.Xml Verif.XmlNet

section
variable {T : Type} {K : XCodec} {D : Dates T}

/-- **C95** The conditions of `network_round_trip_partial`, for names that are written as they are: the network is valid, fits in a document, and its numbers are kept. -/
theorem network_ok_iff {x : Net T} :
    (NetOk K .none D x ∧ x.ident.head.fictitious = false) ↔ NetValid x ∧ NetFits D x ∧ Kept K (netNumbers x) := by
  simp only [netNumbers, kept_append, kept_flatMap]
  constructor
  · rintro ⟨h, hf⟩
    exact ⟨⟨⟨fun a ha => (h.aliases a ha).2, h.nodup, h.types, h.props⟩, h.id, h.name, hf, h.format, h.forecast.1, fun s hs => (substation_iff.1 (h.subs s hs)).1,
      fun s hs => (anyLine_iff.1 (h.lines s hs)).1, fun s hs => (hvdc_iff.1 (h.hvdcs s hs)).1⟩,
      ⟨fun a ha => (h.aliases a ha).1.2, h.forecast.2, h.date, fun s hs => (substation_iff.1 (h.subs s hs)).2.1, fun s hs => (anyLine_iff.1 (h.lines s hs)).2.1,
      fun s hs => (hvdc_iff.1 (h.hvdcs s hs)).2.1⟩,
      ⟨fun s hs => (substation_iff.1 (h.subs s hs)).2.2, fun s hs => (anyLine_iff.1 (h.lines s hs)).2.2⟩, fun s hs => (hvdc_iff.1 (h.hvdcs s hs)).2.2⟩
  · rintro ⟨v, f, ⟨k1, k2⟩, k3⟩
    exact ⟨⟨v.name, v.id, v.format, fun a ha => ⟨⟨none_inverts _, f.ident a ha⟩, v.ident.ids a ha⟩, v.ident.nodup, v.ident.types, v.ident.props, ⟨v.forecast, f.forecast⟩, f.date,
      fun s hs => substation_iff.2 ⟨v.subs s hs, f.subs s hs, k1 s hs⟩, fun s hs => anyLine_iff.2 ⟨v.lines s hs, f.lines s hs, k2 s hs⟩,
      fun s hs => hvdc_iff.2 ⟨v.hvdcs s hs, f.hvdcs s hs, k3 s hs⟩⟩, v.real⟩

/-- **C95** A valid network that fits in a document, with numbers that are kept, is written in every layout and read back as it is, everything included. -/
theorem valid_network_read_back (hK : K.Integers) {x : Net T} (hv : NetValid x) (hf : NetFits D x) (hk : Kept K (netNumbers x)) (i : Bool) :
    ∃ cs toks, writeNet K .none D x = .ok cs ∧ document i cs = .ok toks ∧ readNet K .none D toks = .ok x := by
  obtain ⟨hok, hr⟩ := network_ok_iff.2 ⟨hv, hf, hk⟩
  obtain ⟨cs, toks, h1, h2, h3⟩ := network_round_trip_partial hK hok i
  refine ⟨cs, toks, h1, h2, h3.trans ?_⟩
  obtain ⟨⟨⟨id, name, fictitious⟩, aliases, props⟩, _⟩ := x
  simp only at hr
  subst hr
  rfl

/-- **C95** Export after import is stable: whatever the document, a network read from it that fits in a document is exported and read again as the same network. -/
theorem read_export_read (hK : K.Integers) (hd : K.Doubles) {toks : List Tok} {x : Net T} (h : readNet K .none D toks = .ok x) (hf : NetFits D x)
    (hk : Kept K (netNumbers x)) (i : Bool) : ∃ cs toks', writeNet K .none D x = .ok cs ∧ document i cs = .ok toks' ∧ readNet K .none D toks' = .ok x :=
  valid_network_read_back hK (read_network_valid hd h).1 hf hk i

/-- **C95** The same for an import, with what it checks against the rest of the network: names, places and references give the same objects and terminals. -/
theorem import_export_import (hK : K.Integers) (hd : K.Doubles) {toks : List Tok} {x : Net T} {r : St × List (String × Nat)} (h : importNet K .none D toks = .ok (x, r))
    (hf : NetFits D x) (hk : Kept K (netNumbers x)) (i : Bool) :
    ∃ cs toks', writeNet K .none D x = .ok cs ∧ document i cs = .ok toks' ∧ importNet K .none D toks' = .ok (x, r) := by
  unfold importNet at h
  obtain ⟨y, h1, h⟩ := Out.bind_eq_ok.1 h
  obtain ⟨q, h2, h⟩ := Out.bind_eq_ok.1 h
  simp only [Out.ok.injEq, Prod.mk.injEq] at h
  obtain ⟨rfl, rfl⟩ := h
  obtain ⟨cs, toks', w1, w2, w3⟩ := read_export_read hK hd h1 hf hk i
  refine ⟨cs, toks', w1, w2, ?_⟩
  unfold importNet
  rw [w3, Out.monad_bind_ok, h2]
  rfl

/-- **C95** After safe calls (C94) from a valid network, the network is written and read back as it has become, if it fits in a document. -/
theorem edited_network_read_back (hK : K.Integers) {x y : Net T} {os : List (Setters.NetOp T)} (hx : NetValid x) (hi : Setters.NetInside x) (hs : Setters.SafeHistory x os)
    (h : Setters.run x os = .ok y) (hf : NetFits D y) (hk : Kept K (netNumbers y)) (i : Bool) :
    ∃ cs toks, writeNet K .none D y = .ok cs ∧ document i cs = .ok toks ∧ readNet K .none D toks = .ok y :=
  valid_network_read_back hK (Setters.histories_stay_valid_partial os hx hi hs h) hf hk i

end

/-! ### Examples -/

instance (d : Dbl) : Decidable d.InRange := by
  cases d <;> simp only [Dbl.InRange] <;> infer_instance

/-- The codec of the examples, refusing what a `double` cannot hold. -/
def rangeX : XCodec := { toyX with readD := fun s => (toyX.readD s).bind fun d => if d.InRange then .ok d else .thrown }

theorem rangeX_doubles : rangeX.Doubles := by
  intro s d h
  obtain ⟨e, _, h⟩ := Out.bind_eq_ok.1 (show (toyX.readD s).bind _ = .ok d from h)
  split at h
  · cases h; assumption
  · cases h

theorem rangeX_integers : rangeX.Integers := ⟨toy_naturals, toyX_integers.long, toyX_integers.int, toyX_integers.intOfNat⟩

theorem rangeX_keeps {d : Dbl} (h : d.InRange) : rangeX.Keeps d := by
  intro hn
  show (toyX.readD (toyX.showD d)).bind _ = .ok d
  rw [show toyX.readD (toyX.showD d) = .ok d from toy_exact d, Out.bind_ok, if_pos h]

theorem rangeX_kept {l : List Dbl} (h : ∀ d ∈ l, d.InRange) : Kept rangeX l := fun d hd => rangeX_keeps (h d hd)

theorem someNet_fits : NetValid someNet ∧ NetFits textDates someNet ∧ Kept toyX (netNumbers someNet) := network_ok_iff.1 ⟨someNet_ok, rfl⟩

theorem goodNet_fits : NetValid goodNet ∧ NetFits textDates goodNet ∧ Kept toyX (netNumbers goodNet) := network_ok_iff.1 ⟨goodNet_ok, rfl⟩

theorem someNet_kept : Kept rangeX (netNumbers someNet) := rangeX_kept (by decide +kernel)

theorem goodNet_kept : Kept rangeX (netNumbers goodNet) := rangeX_kept (by decide +kernel)

example : 40 < (netNumbers someNet).length := by decide +kernel

theorem someNet_read_back (i : Bool) : ∃ cs toks, writeNet rangeX .none textDates someNet = .ok cs ∧ document i cs = .ok toks ∧ readNet rangeX .none textDates toks = .ok someNet :=
  valid_network_read_back rangeX_integers someNet_fits.1 someNet_fits.2.1 someNet_kept i

/-- Some document gives the network, and so does the document of the network. -/
example (i : Bool) : ∃ toks, readNet rangeX .none textDates toks = .ok someNet ∧
    ∃ cs toks', writeNet rangeX .none textDates someNet = .ok cs ∧ document i cs = .ok toks' ∧ readNet rangeX .none textDates toks' = .ok someNet := by
  obtain ⟨cs, toks, _, _, h⟩ := someNet_read_back true
  exact ⟨toks, h, read_export_read rangeX_integers rangeX_doubles h someNet_fits.2.1 someNet_kept i⟩

example (i : Bool) : ∃ toks r, importNet rangeX .none textDates toks = .ok (goodNet, r) ∧
    ∃ cs toks', writeNet rangeX .none textDates goodNet = .ok cs ∧ document i cs = .ok toks' ∧ importNet rangeX .none textDates toks' = .ok (goodNet, r) := by
  obtain ⟨cs, toks, r, _, _, h⟩ := import_export_partial (D := textDates) rangeX_integers (network_ok_iff.2 ⟨goodNet_fits.1, goodNet_fits.2.1, goodNet_kept⟩).1 goodNet_consistent.1 goodNet_consistent.2 true
  exact ⟨toks, r, h, import_export_import rangeX_integers rangeX_doubles h goodNet_fits.2.1 goodNet_kept i⟩

end Verif.ReadBack
