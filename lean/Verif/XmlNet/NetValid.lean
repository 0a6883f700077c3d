import Verif.XmlNet.Net
import Verif.XmlNet.Valid

/-!
What a whole network may contain, said without the readers: the specification of `read_network_valid` (C71).
-/

namespace Verif.XmlNet

open Verif Verif.Xml

/-- A voltage is unset or not negative. -/
structure BusValid (x : Bus) : Prop where
  ident : IdentValid x.ident
  v : IsSet x.v → Dbl.le 0 x.v = true

structure NSwValid (x : NSw) : Prop where
  ident : IdentValid x.ident
  kind : x.kind < Enums.switchKind.enumerators.length

structure BSwValid (x : BSw) : Prop where
  ident : IdentValid x.ident
  buses : x.bus1 ≠ "" ∧ x.bus2 ≠ ""

def TopoValid : Topo → Prop
  | .node bbs sws _ _ => (∀ x ∈ bbs, IdentValid x.ident) ∧ ∀ x ∈ sws, NSwValid x
  | .bus buses sws => (∀ x ∈ buses, BusValid x) ∧ ∀ x ∈ sws, BSwValid x

structure EquipValid (e : Equip) : Prop where
  gens : ∀ x ∈ e.gens, GenValid x
  bats : ∀ x ∈ e.bats, BatValid x
  loads : ∀ x ∈ e.loads, LoadValid x
  shs : ∀ x ∈ e.shs, ShValid x
  dls : ∀ x ∈ e.dls, DlValid x
  svcs : ∀ x ∈ e.svcs, SvcValid x
  vscs : ∀ x ∈ e.vscs, VscValid x
  lccs : ∀ x ∈ e.lccs, LccValid x

/-- The limits are unset or not negative, and ordered when both are set. -/
structure VLValid (x : VL) : Prop where
  ident : IdentValid x.ident
  nominal : Dbl.lt 0 x.nominalV = true
  low : IsSet x.low → Dbl.le 0 x.low = true
  high : IsSet x.high → Dbl.le 0 x.high = true
  range : IsSet x.low → IsSet x.high → Dbl.le x.low x.high = true
  topo : TopoValid x.topo
  equip : EquipValid x.equip

structure SubstationValid (x : Substation) : Prop where
  ident : IdentValid x.ident
  country : ∀ c, x.country = some c → c < Enums.country.enumerators.length
  tags : x.tags.Pairwise (· < ·)
  vls : ∀ v ∈ x.vls, VLValid v
  tw2s : ∀ t ∈ x.tw2s, Tw2Valid t
  tw3s : ∀ t ∈ x.tw3s, Tw3Valid t

def AnyLineValid : AnyLine → Prop
  | .line x => LineValid x
  | .tie x => TieValid x

structure NetValid {T : Type} (x : Net T) : Prop where
  ident : IdentValid x.ident
  id : x.ident.head.id ≠ ""
  name : x.ident.head.name = x.ident.head.id
  real : x.ident.head.fictitious = false
  format : x.sourceFormat ≠ ""
  forecast : 0 ≤ x.forecast
  subs : ∀ s ∈ x.subs, SubstationValid s
  lines : ∀ l ∈ x.lines, AnyLineValid l
  hvdcs : ∀ l ∈ x.hvdcs, HvdcValid l

end Verif.XmlNet
