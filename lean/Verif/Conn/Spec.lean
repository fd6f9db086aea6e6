import Verif.Conn.Model
import Verif.Conn.MergeSpec
import Verif.Conn.SearchSpec
/-! Specification vocabulary for physical connectivity, independent of the check. -/
namespace TR

/-- the wire's centre line passes through `n` (ends included) -/
def CWire.On (w : CWire) (n : Node) : Prop :=
  w.layer = n.layer ∧
  ((w.b.x = n.pt.x ∧ w.e.x = n.pt.x ∧ w.b.y ≤ n.pt.y ∧ n.pt.y ≤ w.e.y) ∨
   (w.b.y = n.pt.y ∧ w.e.y = n.pt.y ∧ w.b.x ≤ n.pt.x ∧ n.pt.x ≤ w.e.x))

/-- an object has metal at `n`: a wire along its centre line, a via on both its layers -/
def CObj.On : CObj → Node → Prop
  | .wire w, n => w.On n
  | .via v, n => n.pt = v.o ∧ (n.layer = v.l1 ∨ n.layer = v.l2)

/-- object or pin number `i` (objects first, then pins) is present at `n` -/
def Present (objs : List CObj) (pins : List (List Node)) (i : Nat) (n : Node) : Prop :=
  (∃ o, objs[i]? = some o ∧ o.On n) ∨ ∃ k ns, i = objs.length + k ∧ pins[k]? = some ns ∧ n ∈ ns

/-- `n` is an end of some object (a via is an end on both layers) -/
def IsEnd (objs : List CObj) (n : Node) : Prop := ∃ o ∈ objs, n ∈ o.ends

/-- two elements meet at a node where some object ends -/
def Joined (objs : List CObj) (pins : List (List Node)) (i j : Nat) : Prop :=
  ∃ n, IsEnd objs n ∧ Present objs pins i n ∧ Present objs pins j n

/-- elements connected by a chain of meetings, all inside `K` -/
inductive Chain {α : Type} (R : α → α → Prop) (K : α → Prop) (a : α) : α → Prop
  | refl : K a → Chain R K a a
  | step {b c} : Chain R K a b → R b c → K c → Chain R K a c

/-- the situation after merging: proper wires that overlap nowhere, pins only where objects end -/
structure CleanNet (objs : List CObj) (pins : List (List Node)) : Prop where
  proper : ∀ w, .wire w ∈ objs → w.Proper
  apart : ∀ (i j : Nat) (v w : CWire), i ≠ j → objs[i]? = some (CObj.wire v) → objs[j]? = some (CObj.wire w) → ¬ v.Overlap w
  pinEnds : ∀ ns ∈ pins, ∀ n ∈ ns, IsEnd objs n

/-- a shape of the net, or pin number `k` -/
inductive El where
  | obj (o : CObj)
  | pin (k : Nat)

/-- the element has metal at `n` -/
def El.On (pins : List (List Node)) : El → Node → Prop
  | .obj o, n => o.On n
  | .pin k, n => ∃ ns, pins[k]? = some ns ∧ n ∈ ns

/-- two elements have a common point -/
def Touch (pins : List (List Node)) (a b : El) : Prop := ∃ n, a.On pins n ∧ b.On pins n

/-- the element belongs to the net with shapes `F` -/
def InNet (F : List CObj) (pins : List (List Node)) : El → Prop
  | .obj o => o ∈ F
  | .pin k => k < pins.length

/-- every two pins are connected by a chain of touching shapes of `F` (and pins) -/
def PinsConnected (F : List CObj) (pins : List (List Node)) : Prop :=
  ∀ j k, j < pins.length → k < pins.length → Chain (Touch pins) (InNet F pins) (.pin j) (.pin k)

/-- `n` lies strictly between the ends of the horizontal (`horz`) or vertical wire `w` -/
def CWire.StrictlyInside (w : CWire) (horz : Bool) (n : Node) : Prop :=
  w.layer = n.layer ∧
  if horz then w.b.y = n.pt.y ∧ w.e.y = n.pt.y ∧ w.b.x < n.pt.x ∧ n.pt.x < w.e.x
  else w.b.x = n.pt.x ∧ w.e.x = n.pt.x ∧ w.b.y < n.pt.y ∧ n.pt.y < w.e.y

/-- `v` lies on `w`: same layer, and every point of `v` is a point of `w` -/
def CWire.LiesOn (v w : CWire) : Prop := v.layer = w.layer ∧ ∀ n, v.On n → w.On n

end TR
