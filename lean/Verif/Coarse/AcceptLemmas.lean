import Verif.Coarse.OkProps

/-!
Helper lemmas of C89: the objects of the network seen at a level.
-/

namespace Verif.Coarse

open Verif Verif.Xml Verif.XmlNet

/-! ### Names -/

theorem flatMap_perm {α β : Type} (a b : α → List β) : ∀ l : List α, (l.flatMap fun x => a x ++ b x).Perm (l.flatMap a ++ l.flatMap b) := by
  intro l
  induction l with
  | nil => exact .refl _
  | cons x l ih =>
    simp only [List.flatMap_cons]
    calc (a x ++ b x) ++ l.flatMap (fun x => a x ++ b x)
        |>.Perm ((a x ++ b x) ++ (l.flatMap a ++ l.flatMap b)) := ih.append_left _
      _ |>.Perm (a x ++ l.flatMap a ++ (b x ++ l.flatMap b)) := by
        simp only [List.append_assoc]
        refine List.Perm.append_left _ ?_
        rw [← List.append_assoc, ← List.append_assoc]
        exact List.perm_append_comm.append_right _

theorem flatMap_perm_of {α β : Type} {a b : α → List β} {l : List α} (h : ∀ x ∈ l, (a x).Perm (b x)) : (l.flatMap a).Perm (l.flatMap b) := by
  induction l with
  | nil => exact .refl _
  | cons x l ih =>
    simp only [List.flatMap_cons]
    exact (h x List.mem_cons_self).append (ih fun y hy => h y (List.mem_cons_of_mem _ hy))

theorem flatMap_sublist {α β : Type} {a b : α → List β} {l : List α} (h : ∀ x ∈ l, (a x).Sublist (b x)) : (l.flatMap a).Sublist (l.flatMap b) := by
  induction l with
  | nil => exact .refl _
  | cons x l ih =>
    simp only [List.flatMap_cons]
    exact (h x List.mem_cons_self).append (ih fun y hy => h y (List.mem_cons_of_mem _ hy))

theorem sublist_flatMap {α β : Type} (a : α → List β) {l m : List α} (h : l.Sublist m) : (l.flatMap a).Sublist (m.flatMap a) := by
  induction h with
  | slnil => exact .refl _
  | cons x _ ih => exact ih.trans (List.sublist_append_right _ _)
  | cons_cons x _ ih => exact (List.Sublist.refl _).append ih

/-- The names of an identifiable. -/
def identNames (i : Ident) : List String := i.head.id :: i.aliases.map Prod.fst

theorem names_of_idents (l : List Item) : l.flatMap Item.names = (l.map Item.ident).flatMap identNames := by
  rw [List.flatMap_map]
  rfl

section names
variable (L : Level) (W : Views) (f : String → Place → Place)

def topoIdents : Topo → List Ident
  | .node bbs sws _ _ => bbs.map Bbs.ident ++ sws.map NSw.ident
  | .bus buses sws => buses.map Bus.ident ++ sws.map BSw.ident

/-- The buses of a view. -/
def madeBuses (v : VL) : List Bus := ((viewAt L W v).map View.buses).getD []

/-- What the export keeps of a topology. -/
def keptTopo (v : VL) : List Ident :=
  match viewAt L W v with
  | none => topoIdents v.topo
  | some w => w.sws.map VSw.ident

def keptVL (v : VL) : List Ident := v.ident :: (keptTopo L W v ++ (equipItems "" v.equip).map Item.ident)

def keptSubstation (s : Substation) : List Ident := s.ident :: (s.vls.flatMap (keptVL L W) ++ (s.tw2s.map Tw2.ident ++ s.tw3s.map Tw3.ident))

def lineIdent : AnyLine → Ident
  | .line l => l.ident
  | .tie l => l.ident

def keptNet {T : Type} (x : Net T) : List Ident := x.ident :: (x.subs.flatMap (keptSubstation L W) ++ (x.lines.map lineIdent ++ x.hvdcs.map HvdcLine.ident))

theorem topo_idents (vl : String) (t : Topo) : (topoItems vl t).map Item.ident = topoIdents t := by
  cases t <;> simp [topoItems, topoIdents, bbsItem, nswItem, busItem, bswItem, injection, plain, Function.comp_def]

theorem equip_idents (vl vl' : String) (e : Equip) : (equipItems vl (equipTo f vl' e)).map Item.ident = (equipItems "" e).map Item.ident := by
  simp [equipItems, equipTo, injection, Function.comp_def]

theorem equip_idents' (vl : String) (e : Equip) : (equipItems vl e).map Item.ident = (equipItems "" e).map Item.ident := by
  simp [equipItems, injection, Function.comp_def]

theorem topoAt_idents (v : VL) : topoIdents (topoAt W v.ident.head.id L v.topo) = (madeBuses L W v).map Bus.ident ++ keptTopo L W v := by
  unfold madeBuses keptTopo viewAt
  cases L with
  | nodeBreaker => cases v.topo <;> simp [topoAt, topoIdents]
  | busBreaker => cases v.topo <;> simp [topoAt, topoIdents, VSw.plain, Function.comp_def]
  | busBranch => cases v.topo <;> simp [topoAt, topoIdents]

theorem vl_idents (sub : String) (v : VL) : ((vlItems sub (vlAt L W f v)).map Item.ident).Perm ((madeBuses L W v).map Bus.ident ++ keptVL L W v) := by
  have e : (vlItems sub (vlAt L W f v)).map Item.ident = v.ident :: ((madeBuses L W v).map Bus.ident ++ (keptTopo L W v ++ (equipItems "" v.equip).map Item.ident)) := by
    simp only [vlItems, List.map_cons, List.map_append, topo_idents]
    rw [show (vlAt L W f v).topo = topoAt W v.ident.head.id L v.topo from rfl, topoAt_idents, show (vlAt L W f v).equip = equipTo f v.ident.head.id v.equip from rfl, equip_idents, List.append_assoc]
    rfl
  rw [e]
  exact List.perm_middle.symm

theorem substation_idents (s : Substation) :
    ((substationItems (substationAt L W f s)).map Item.ident).Perm ((s.vls.flatMap fun v => (madeBuses L W v).map Bus.ident) ++ keptSubstation L W s) := by
  have e : (substationItems (substationAt L W f s)).map Item.ident =
      s.ident :: ((s.vls.flatMap fun v => (vlItems s.ident.head.id (vlAt L W f v)).map Item.ident) ++ (s.tw2s.map Tw2.ident ++ s.tw3s.map Tw3.ident)) := by
    simp [substationItems, substationAt, plain, tw2Item, tw3Item, branch, tw2To, tw3To, List.map_flatMap, List.flatMap_map, Function.comp_def]
  rw [e]
  have h1 := (flatMap_perm_of (l := s.vls) fun v _ => vl_idents L W f s.ident.head.id v).trans (flatMap_perm (fun v => (madeBuses L W v).map Bus.ident) (keptVL L W) s.vls)
  refine ((h1.append_right _).cons _).trans ?_
  rw [List.append_assoc]
  exact List.perm_middle.symm

theorem net_idents {T : Type} (x : Net T) : ((netItems (netAt L W f x)).map Item.ident).Perm ((newBuses L W x).map Bus.ident ++ keptNet L W x) := by
  have e : (netItems (netAt L W f x)).map Item.ident =
      x.ident :: ((x.subs.flatMap fun s => (substationItems (substationAt L W f s)).map Item.ident) ++ (x.lines.map lineIdent ++ x.hvdcs.map HvdcLine.ident)) := by
    have el : ∀ l : AnyLine, (lineItem (lineTo f l)).ident = lineIdent l := fun l => by cases l <;> rfl
    simp [netItems, netAt, plain, hvdcItem, List.map_flatMap, List.flatMap_map, Function.comp_def, el]
  rw [e]
  have hb : (newBuses L W x).map Bus.ident = x.subs.flatMap fun s => s.vls.flatMap fun v => (madeBuses L W v).map Bus.ident := by
    simp only [newBuses, levels, List.map_flatMap, List.flatMap_assoc]
    rfl
  have h1 := (flatMap_perm_of (l := x.subs) fun s _ => substation_idents L W f s).trans
    (flatMap_perm (fun s => s.vls.flatMap fun v => (madeBuses L W v).map Bus.ident) (keptSubstation L W) x.subs)
  refine ((h1.append_right _).cons _).trans ?_
  rw [List.append_assoc, hb]
  exact List.perm_middle.symm

variable {L W}

theorem keptNet_sublist {T : Type} {x : Net T} (hv : ViewsFit L W x) : (keptNet L W x).Sublist ((netItems x).map Item.ident) := by
  have e : (netItems x).map Item.ident =
      x.ident :: ((x.subs.flatMap fun s => (substationItems s).map Item.ident) ++ (x.lines.map lineIdent ++ x.hvdcs.map HvdcLine.ident)) := by
    have el : ∀ l : AnyLine, (lineItem l).ident = lineIdent l := fun l => by cases l <;> rfl
    simp [netItems, plain, hvdcItem, List.map_flatMap, Function.comp_def, el]
  rw [e]
  refine List.Sublist.cons_cons _ (List.Sublist.append (flatMap_sublist fun s hs => ?_) (.refl _))
  have e : (substationItems s).map Item.ident = s.ident :: ((s.vls.flatMap fun v => (vlItems s.ident.head.id v).map Item.ident) ++ (s.tw2s.map Tw2.ident ++ s.tw3s.map Tw3.ident)) := by
    simp [substationItems, plain, tw2Item, tw3Item, branch, List.map_flatMap, Function.comp_def]
  rw [e]
  refine List.Sublist.cons_cons _ (List.Sublist.append (flatMap_sublist fun v hvs => ?_) (.refl _))
  have e : (vlItems s.ident.head.id v).map Item.ident = v.ident :: (topoIdents v.topo ++ (equipItems "" v.equip).map Item.ident) := by
    simp only [vlItems, List.map_cons, List.map_append, topo_idents, equip_idents']
    rfl
  rw [e]
  refine List.Sublist.cons_cons _ (List.Sublist.append ?_ (.refl _))
  unfold keptTopo
  cases hw : viewAt L W v with
  | none => exact .refl _
  | some w =>
    refine (hv.switches v (List.mem_flatMap.2 ⟨s, hs, hvs⟩) w hw).trans ?_
    cases v.topo with
    | node => exact List.sublist_append_right _ _
    | bus => exact List.sublist_append_right _ _

/-- What is kept is an object of the network, and not a bus when the buses are merged. -/
theorem mem_keptNet {T : Type} {x : Net T} (hv : ViewsFit L W x) {i : Ident} (hi : i ∈ keptNet L W x) : ∃ y, x.Has y ∧ y.ident = i ∧ (L = .busBranch → ∀ vl, y.obj ≠ .bus vl) := by
  simp only [keptNet, List.mem_cons, List.mem_append, List.mem_flatMap, List.mem_map, keptSubstation, keptVL] at hi
  rcases hi with rfl | ⟨s, hs, rfl | ⟨v, hvs, rfl | h | ⟨y, hy, rfl⟩⟩ | ⟨t, ht, rfl⟩ | ⟨t, ht, rfl⟩⟩ | ⟨l, hl, rfl⟩ | ⟨l, hl, rfl⟩
  · exact ⟨_, .network, rfl, fun _ _ => nofun⟩
  · exact ⟨_, .substation hs, rfl, fun _ _ => nofun⟩
  · exact ⟨_, .inLevel hs hvs .level, rfl, fun _ _ => nofun⟩
  · unfold keptTopo at h
    cases hw : viewAt L W v with
    | none =>
      rw [hw] at h
      cases ht : v.topo with
      | node bbs sws conns calcs =>
        simp only [ht, topoIdents, List.mem_append, List.mem_map] at h
        rcases h with ⟨b, hb, rfl⟩ | ⟨b, hb, rfl⟩
        · exact ⟨_, .inLevel hs hvs (.busbar ht hb), rfl, fun _ _ => nofun⟩
        · exact ⟨_, .inLevel hs hvs (.nodeSwitch ht hb), rfl, fun _ _ => nofun⟩
      | bus buses sws =>
        have hL : L ≠ .busBranch := by rintro rfl; simp [viewAt] at hw
        simp only [ht, topoIdents, List.mem_append, List.mem_map] at h
        rcases h with ⟨b, hb, rfl⟩ | ⟨b, hb, rfl⟩
        · exact ⟨_, .inLevel hs hvs (.bus ht hb), rfl, fun e => absurd e hL⟩
        · exact ⟨_, .inLevel hs hvs (.busSwitch ht hb), rfl, fun _ _ => nofun⟩
    | some w =>
      rw [hw] at h
      have h := (hv.switches v (List.mem_flatMap.2 ⟨s, hs, hvs⟩) w hw).subset h
      cases ht : v.topo with
      | node bbs sws conns calcs =>
        rw [ht] at h
        obtain ⟨b, hb, rfl⟩ := List.mem_map.1 h
        exact ⟨_, .inLevel hs hvs (.nodeSwitch ht hb), rfl, fun _ _ => nofun⟩
      | bus buses sws =>
        rw [ht] at h
        obtain ⟨b, hb, rfl⟩ := List.mem_map.1 h
        exact ⟨_, .inLevel hs hvs (.busSwitch ht hb), rfl, fun _ _ => nofun⟩
  · simp only [equipItems, List.mem_append, List.mem_map] at hy
    rcases hy with ⟨y, hy, rfl⟩ | ⟨y, hy, rfl⟩ | ⟨y, hy, rfl⟩ | ⟨y, hy, rfl⟩ | ⟨y, hy, rfl⟩ | ⟨y, hy, rfl⟩ | ⟨y, hy, rfl⟩ | ⟨y, hy, rfl⟩
    · exact ⟨_, .inLevel hs hvs (.generator hy), rfl, fun _ _ => nofun⟩
    · exact ⟨_, .inLevel hs hvs (.battery hy), rfl, fun _ _ => nofun⟩
    · exact ⟨_, .inLevel hs hvs (.load hy), rfl, fun _ _ => nofun⟩
    · exact ⟨_, .inLevel hs hvs (.shunt hy), rfl, fun _ _ => nofun⟩
    · exact ⟨_, .inLevel hs hvs (.danglingLine hy), rfl, fun _ _ => nofun⟩
    · exact ⟨_, .inLevel hs hvs (.svc hy), rfl, fun _ _ => nofun⟩
    · exact ⟨_, .inLevel hs hvs (.vsc hy), rfl, fun _ _ => nofun⟩
    · exact ⟨_, .inLevel hs hvs (.lcc hy), rfl, fun _ _ => nofun⟩
  · exact ⟨_, .transformer2 hs ht, rfl, fun _ _ => nofun⟩
  · exact ⟨_, .transformer3 hs ht, rfl, fun _ _ => nofun⟩
  · cases l with
    | line l => exact ⟨_, .line hl, rfl, fun _ _ => nofun⟩
    | tie l => exact ⟨_, .tieLine hl, rfl, fun _ _ => nofun⟩
  · exact ⟨_, .hvdc hl, rfl, fun _ _ => nofun⟩

theorem names_at_level {T : Type} {x : Net T} (hn : ((netItems x).flatMap Item.names).Nodup) (hv : ViewsFit L W x) : ((netItems (netAt L W f x)).flatMap Item.names).Nodup := by
  rw [names_of_idents] at hn ⊢
  rw [((net_idents L W f x).flatMap_right identNames).nodup_iff, List.flatMap_append, List.nodup_append]
  have eb : ((newBuses L W x).map Bus.ident).flatMap identNames = (newBuses L W x).map fun b => b.ident.head.id := by
    have : ∀ l : List Bus, (∀ b ∈ l, b.ident.aliases = []) → (l.map Bus.ident).flatMap identNames = l.map fun b => b.ident.head.id := by
      intro l
      induction l with
      | nil => intro _; rfl
      | cons b l ih =>
        intro h
        simp only [List.map_cons, List.flatMap_cons, ih fun c hc => h c (List.mem_cons_of_mem _ hc), identNames, h b List.mem_cons_self]
        rfl
    exact this _ fun b hb => (hv.named b hb).2
  rw [eb]
  refine ⟨hv.distinct, hn.sublist ?_, ?_⟩
  · exact sublist_flatMap _ (keptNet_sublist hv)
  · intro a ha b hb e
    subst e
    obtain ⟨c, hc, rfl⟩ := List.mem_map.1 ha
    obtain ⟨i, hi, hb⟩ := List.mem_flatMap.1 hb
    obtain ⟨y, hy, rfl, hne⟩ := mem_keptNet hv hi
    obtain ⟨hL, vl, ho⟩ := hv.free c hc y hy hb
    exact hne hL vl ho

end names

end Verif.Coarse
