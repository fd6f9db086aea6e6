import Verif.Thr.Model
/-! # What is said of the threads -/
namespace TR

variable {D S F : Type}

/-- a round executed on its own: the memory it has reached and what it has added -/
inductive ThrReach (d : D) (t : ThrTask D S F) : S → List F → Prop where
  | start : ThrReach d t t.start []
  | step {s s' : S} {g fs : List F} : ThrReach d t s g → t.step d s = some (s', fs) → ThrReach d t s' (g ++ fs)

/-- a round executed on its own until it ends -/
def ThrSolo (d : D) (t : ThrTask D S F) (s : S) (g : List F) : Prop := ThrReach d t s g ∧ t.step d s = none

/-- the programs of the workers do, each on its own, what `R.router` says: the result, and the nets marked while routing -/
def DrDescribes (R : RunEnv) {S : Type} (Q : DrProg S) : Prop := ∀ (c : Call) (W : Worker) (D : DesignSt) (s : S) (g : List Nat), ThrSolo D (Q.task c W) s g →
  Q.result s = R.router c.iter W D ∧ ∀ n, n ∈ g ↔ c.flags R D W n = true

/-- every worker, on its own, comes to an end -/
def DrEnds {S : Type} (Q : DrProg S) : Prop := ∀ (c : Call) (W : Worker) (D : DesignSt), ∃ s g, ThrSolo D (Q.task c W) s g

/-- the programs of the panels do, each on its own, what `panelRun` says: the places of the wires, and the number assigned -/
def TaDescribes (net : Nat → Nat) (maxRetry : Nat) {S : Type} (T : TaProg S) (out : S → TaPlaces) : Prop :=
  ∀ (p : TaPanelIn) (pl : TaPlaces) (s : S) (g : List Nat), ThrSolo pl (T p) s g → panelRun net maxRetry pl p = some (out s, g.sum)

/-- no panel has wires, its own or in its surroundings, that are assigned in another panel before it in the same batch -/
def TaSeparate (gs : List (List TaPanelIn)) : Prop := ∀ b ∈ gs, b.Pairwise (fun p p' => ∀ q ∈ p'.wires ++ p'.ext, q ∉ p.wires)

end TR
