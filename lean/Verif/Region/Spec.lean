import Verif.WB.Spec
import Verif.Conn.Spec
/-! Specification vocabulary for the pieces of a net in a region, independent of the code. -/
namespace TR

/-- the object has metal at a node: a wire along its centre line, a via on the metal layers next to its cut layer, a patch at its origin -/
def DObj.At : DObj → Node → Prop
  | .seg s, n => s.layer = n.layer ∧ s.On n.pt
  | .via v, n => n.pt = v.o ∧ (n.layer = v.cut - 1 ∨ n.layer = v.cut + 1)
  | .patch p, n => n.pt = p.o ∧ n.layer = p.layer

/-- a wire ends at the node, or a via lands on it -/
def DObj.EndsAt : DObj → Node → Prop
  | .seg s, n => s.layer = n.layer ∧ (s.b = n.pt ∨ s.e = n.pt)
  | .via v, n => n.pt = v.o ∧ (n.layer = v.cut - 1 ∨ n.layer = v.cut + 1)
  | .patch _, _ => False

/-- a pin may be reached there: a wire ends without extension, or a via lands -/
def DObj.Access : DObj → Node → Prop
  | .seg s, n => s.layer = n.layer ∧ ((s.st.beginKind = .truncate ∧ s.b = n.pt) ∨ (s.st.endKind = .truncate ∧ s.e = n.pt))
  | .via v, n => n.pt = v.o ∧ (n.layer = v.cut - 1 ∨ n.layer = v.cut + 1)
  | .patch _, _ => False

def DObj.isPatch : DObj → Bool
  | .patch _ => true
  | _ => false

/-- an object of a net, or a pin of it by number -/
inductive RElem where
  | obj (o : DObj)
  | pin (k : Nat)
deriving DecidableEq

def RElem.IsPatch : RElem → Prop
  | .obj (.patch _) => True
  | _ => False

/-- an object of the net is at the node; a pin is at the node if it has a shape there and a wire or via of the net gives access there, in the region -/
def RElem.At (R : Box) (objs : List DObj) (pinAt : Nat → Node → Bool) : RElem → Node → Prop
  | .obj o, n => o.At n
  | .pin k, n => pinAt k n = true ∧ R.Has n.pt ∧ ∃ o ∈ objs, o.Access n

/-- two elements meet: they share a node at which a wire ends or a via lands. (Two patches with the same origin meet as well.) -/
def RElem.Meets (R : Box) (objs : List DObj) (pinAt : Nat → Node → Bool) (a b : RElem) : Prop :=
  ∃ n, a.At R objs pinAt n ∧ b.At R objs pinAt n ∧ ((∃ o ∈ objs, o.EndsAt n) ∨ (a.IsPatch ∧ b.IsPatch))

/-- the element belongs to the net: an object of it, or a pin that is reached -/
def RElem.InNet (R : Box) (objs : List DObj) (pinAt : Nat → Node → Bool) (nPins : Nat) : RElem → Prop
  | .obj o => o ∈ objs
  | .pin k => k < nPins ∧ ∃ n, (RElem.pin k).At R objs pinAt n

/-- two wires have two points in common -/
def DSeg.Overlap (s t : DSeg) : Prop := s.layer = t.layer ∧ ∃ p q, p ≠ q ∧ s.On p ∧ s.On q ∧ t.On p ∧ t.On q

/-- a wire of positive length with 32-bit coordinates -/
def DSeg.Pos (s : DSeg) : Prop := s.Ok ∧ s.b ≠ s.e ∧ -2147483648 ≤ s.b.x ∧ -2147483648 ≤ s.b.y

/-- wires of positive length that overlap nowhere -/
structure TidyNet (objs : List DObj) : Prop where
  pos : ∀ s, .seg s ∈ objs → s.Pos
  apart : objs.Pairwise (fun o o' => ∀ s t, o = .seg s → o' = .seg t → ¬ s.Overlap t)

/-! ### connections of a whole net -/

/-- an object is at the node; a pin is at the node if it has a shape there and a wire of the net ends there without extension, or a via lands there -/
def RElem.GAt (objs : List DObj) (pinAt : Nat → Node → Bool) : RElem → Node → Prop
  | .obj o, n => o.At n
  | .pin k, n => pinAt k n = true ∧ ∃ o ∈ objs, o.Access n

/-- two elements share a node at which a wire of the net ends or a via lands -/
def RElem.Joins (objs : List DObj) (pinAt : Nat → Node → Bool) (a b : RElem) : Prop :=
  ∃ n, a.GAt objs pinAt n ∧ b.GAt objs pinAt n ∧ ∃ o ∈ objs, o.EndsAt n

/-- wires, vias and pins of the net -/
def RElem.Conducts (objs : List DObj) (nPins : Nat) : RElem → Prop
  | .obj o => o ∈ objs ∧ o.isPatch = false
  | .pin k => k < nPins

/-- connected through wires, vias and pins of the net that are joined where wires end or vias land: the sense in which the router looks for connections -/
def Connected (objs : List DObj) (pinAt : Nat → Node → Bool) (nPins : Nat) (a b : RElem) : Prop :=
  Chain (RElem.Joins objs pinAt) (RElem.Conducts objs nPins) a b

/-- an object or pin shape is at the node -/
def RElem.PAt (pinAt : Nat → Node → Bool) : RElem → Node → Prop
  | .obj o, n => o.At n
  | .pin k, n => pinAt k n = true

/-- connected through touching wires, vias and pin shapes -/
def PConnected (objs : List DObj) (pinAt : Nat → Node → Bool) (nPins : Nat) (a b : RElem) : Prop :=
  Chain (fun a b => ∃ n, RElem.PAt pinAt a n ∧ RElem.PAt pinAt b n) (RElem.Conducts objs nPins) a b

end TR
