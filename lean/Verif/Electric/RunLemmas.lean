import Verif.Electric.LinkLemmas
import Verif.CompBuses.Props

/-! Lemmas of C91: histories. -/

namespace Verif.Electric

open Verif Verif.Graph
open Verif.NodeBreaker (EqType Passing Branchy Conn)
open Verif.CompBuses (Level LevelsOk EndsOk Filler Fills Tells viewBuses listAll)
open Verif.BusState (Bus)
open Verif.NetComponents (Snap Sorter AnyLink AcLink Joined Right fillAll fillAc)

/-- The manager of the connected components, or of the synchronous ones. -/
def fillOf (dc : Bool) : Filler := if dc then fillAll else fillAc

theorem fills_of (dc : Bool) : Fills (fillOf dc) (Rel dc) := by
  cases dc with
  | false => exact CompBuses.fills_synchronous
  | true => exact CompBuses.fills_connected

theorem acLink_mono {s s' : Snap} (h1 : s.lines = s'.lines) (h2 : s.trafos = s'.trafos) (h3 : s.three = s'.three) {a b : String} : AcLink s a b → AcLink s' a b
  | .line h => .line (h1 ▸ h)
  | .trafo h => .trafo (h2 ▸ h)
  | .leg12 h => .leg12 (h3 ▸ h)
  | .leg13 h => .leg13 (h3 ▸ h)
  | .leg23 h => .leg23 (h3 ▸ h)

theorem rel_mono {dc : Bool} {s s' : Snap} (h1 : s.lines = s'.lines) (h2 : s.trafos = s'.trafos) (h3 : s.three = s'.three) (h4 : s.hvdc = s'.hvdc) {a b : String}
    (h : Rel dc s a b) : Rel dc s' a b := by
  cases dc with
  | false => exact acLink_mono h1 h2 h3 h
  | true =>
    cases h with
    | ac h => exact .ac (acLink_mono h1 h2 h3 h)
    | dc h => exact .dc (h4 ▸ h)

theorem ends_ok {levels : List Level} (hl : LevelsOk levels) {e : Equip} (he : EquipOk levels e) {s : Snap} (hs : links levels e = .ok s) : EndsOk levels s := by
  obtain ⟨s', h1, h2⟩ := links_ok hl he
  rw [hs] at h1
  cases Out.ok.inj h1
  intro bs hb i j h
  have h' : AnyLink s i j := rel_mono (dc := true) (s := { s with buses := bs.map Prod.fst }) (s' := s) rfl rfl rfl rfl h
  obtain ⟨l, _, a, _, b, _, ka, kb⟩ := (h2 true).1 i j h'
  obtain ⟨x, hx⟩ := onView_listed hl ka.2 hb
  obtain ⟨y, hy⟩ := onView_listed hl kb.2 hb
  exact ⟨List.mem_map.2 ⟨_, hx, rfl⟩, List.mem_map.2 ⟨_, hy, rfl⟩⟩

theorem ask_keeps {fill : Filler} {srt : Sorter} {st : CompBuses.St} (b : Bus) :
    (CompBuses.step fill srt st (.ask b)).levels = st.levels ∧ (CompBuses.step fill srt st (.ask b)).links = st.links := by
  show CompBuses.St.levels (match CompBuses.componentOf fill srt st b with | .ok r => r.2 | .thrown => st | .ub => st) = st.levels ∧
    CompBuses.St.links (match CompBuses.componentOf fill srt st b with | .ok r => r.2 | .thrown => st | .ub => st) = st.links
  cases hc : CompBuses.componentOf fill srt st b with
  | ok r =>
    have := CompBuses.component_state hc
    show r.2.levels = st.levels ∧ r.2.links = st.links
    unfold CompBuses.update at this
    split at this
    · rw [← Out.ok.inj this]
      exact ⟨rfl, rfl⟩
    · obtain ⟨_, _, this⟩ := Out.bind_eq_ok.1 this
      obtain ⟨_, _, this⟩ := Out.bind_eq_ok.1 this
      obtain ⟨_, _, this⟩ := Out.bind_eq_ok.1 this
      obtain ⟨_, _, this⟩ := Out.bind_eq_ok.1 this
      obtain ⟨_, _, this⟩ := Out.bind_eq_ok.1 this
      obtain ⟨m, _, this⟩ := CompBuses.map_ok this
      rw [← this]
      exact ⟨rfl, rfl⟩
  | thrown => exact ⟨rfl, rfl⟩
  | ub => exact ⟨rfl, rfl⟩

theorem run_append {fill : Filler} {srt : Sorter} : ∀ (xs : List CompBuses.Op) (op : CompBuses.Op) (st : CompBuses.St),
    CompBuses.run fill srt (xs ++ [op]) st = CompBuses.step fill srt (CompBuses.run fill srt xs st) op
  | [], _, _ => rfl
  | x :: xs, op, st => run_append xs op (CompBuses.step fill srt st x)

theorem run_ok {fill : Filler} {srt : Sorter} : ∀ (ops : List Op) (st : St), (∀ op ∈ ops, OpOk op) →
    (∃ xs, st.core = CompBuses.run fill srt xs CompBuses.init ∧ ∀ op ∈ xs, CompBuses.OpOk op) → LevelsOk st.core.levels → EquipOk st.core.levels st.equip →
    links st.core.levels st.equip = .ok st.core.links →
    ∃ st' xs, run fill srt ops st = .ok st' ∧ st'.core = CompBuses.run fill srt xs CompBuses.init ∧ (∀ op ∈ xs, CompBuses.OpOk op) ∧ LevelsOk st'.core.levels ∧
      EquipOk st'.core.levels st'.equip ∧ links st'.core.levels st'.equip = .ok st'.core.links
  | [], st, _, ⟨xs, h1, h2⟩, h3, h4, h5 => ⟨st, xs, rfl, h1, h2, h3, h4, h5⟩
  | op :: ops, st, ho, ⟨xs, h1, h2⟩, h3, h4, h5 => by
    have ho' := fun o h => ho o (List.mem_cons_of_mem _ h)
    cases op with
    | topology levels e =>
      obtain ⟨hl, he⟩ : LevelsOk levels ∧ EquipOk levels e := ho _ List.mem_cons_self
      obtain ⟨s, hs, _⟩ := links_ok hl he
      have := run_ok (fill := fill) (srt := srt) ops ⟨CompBuses.step fill srt st.core (.topology levels s), e⟩ ho'
        ⟨xs ++ [.topology levels s], by rw [run_append, h1], fun o h => by
          rcases List.mem_append.1 h with h | h
          · exact h2 o h
          · cases List.mem_singleton.1 h
            exact ⟨hl, ends_ok hl he hs⟩⟩ hl he hs
      simpa only [run, step, hs, Out.map, Out.bind_ok] using this
    | ask b =>
      obtain ⟨k1, k2⟩ := ask_keeps (fill := fill) (srt := srt) (st := st.core) b
      have := run_ok (fill := fill) (srt := srt) ops { st with core := CompBuses.step fill srt st.core (.ask b) } ho'
        ⟨xs ++ [.ask b], by rw [run_append, h1], fun o h => by
          rcases List.mem_append.1 h with h | h
          · exact h2 o h
          · cases List.mem_singleton.1 h
            trivial⟩ (by rw [k1]; exact h3) (by rw [k1]; exact h4) (by rw [k1, k2]; exact h5)
      simpa only [run, step, Out.bind_ok] using this

end Verif.Electric
