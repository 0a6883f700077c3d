import Verif.Components.Model

/-! Vocabulary of the property about components: neighbours and paths in an adjacency list. -/

namespace Verif.Components

/-- All neighbours are vertices. -/
def InRange (adj : Adj) : Prop := ∀ (v : Nat) ws, adj[v]? = some ws → ∀ w ∈ ws, w < adj.length

/-- `w` is listed next to `v`. -/
def Next (adj : Adj) (v w : Nat) : Prop := ∃ ws, adj[v]? = some ws ∧ w ∈ ws

/-- `u` can be reached from `v`. -/
inductive Path (adj : Adj) (v : Nat) : Nat → Prop
  | refl : Path adj v v
  | step {u w} : Path adj v u → Next adj u w → Path adj v w

/-- Neighbourhood is symmetric. -/
def Symmetric (adj : Adj) : Prop := ∀ a b, Next adj a b → Next adj b a

end Verif.Components
