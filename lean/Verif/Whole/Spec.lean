import Verif.Whole.Model
/-! Specification vocabulary: what it means that the routes of a file connect pins. -/
namespace TR

/-- a wire or via of the file, or a pin of the net -/
inductive FileEl where
  | wire (s : DSeg)
  | via (v : OVia)
  | pin (k : Nat)

/-- it has metal at a point of a layer: a wire on its centre line, a via at its place on the layers below and above the cut, a pin where it is drawn -/
def FileEl.At (pinAt : Nat → Node → Bool) : FileEl → Node → Prop
  | .wire s, n => s.layer = n.layer ∧ s.On n.pt
  | .via v, n => n.pt = v.o ∧ (n.layer = v.cut - 1 ∨ n.layer = v.cut + 1)
  | .pin k, n => pinAt k n = true

/-- it belongs to the net of the file -/
def FileEl.Of (ws : List DSeg) (vs : List OVia) : FileEl → Prop
  | .wire s => s ∈ ws
  | .via v => v ∈ vs
  | .pin _ => True

/-- a chain of wires, vias and pins leads from one pin to another, and each two neighbours of it have metal at the same point -/
def RoutesJoin (ws : List DSeg) (vs : List OVia) (pinAt : Nat → Node → Bool) (k l : Nat) : Prop :=
  Chain (fun a b => ∃ n : Node, FileEl.At pinAt a n ∧ FileEl.At pinAt b n) (FileEl.Of ws vs) (.pin k) (.pin l)

/-- a wire by its layer, its two ends and which of them are flush: a truncated end is, an extended one is not -/
def DSeg.drawnAs (s : DSeg) : CWire :=
  { layer := s.layer, b := s.b, e := s.e, truncB := s.st.beginKind == .truncate, truncE := s.st.endKind == .truncate }

/-- a route reaches pin `k`: a flush end of a (merged) wire lies on the pin, or a via does, at a point where no (merged) wire has an extended end -/
def ReachesPin (os : List DObj) (pinAt : Nat → Node → Bool) (k : Nat) : Prop :=
  ∃ n : Node, pinAt k n = true ∧
    ((∃ w ∈ mergedWires ((segsOf os).map DSeg.drawnAs), w.layer = n.layer ∧ (w.truncB = true ∧ w.b = n.pt ∨ w.truncE = true ∧ w.e = n.pt)) ∨
     (∃ v ∈ netVias os, v.o = n.pt ∧ (n.layer = v.cut - 1 ∨ n.layer = v.cut + 1)) ∧
      ∀ w ∈ mergedWires ((segsOf os).map DSeg.drawnAs), w.layer = n.layer → (w.b = n.pt → w.truncB = true) ∧ (w.e = n.pt → w.truncE = true))

/-- all wires have positive length and coordinates that fit 32 bits -/
def Drawn (os : List DObj) : Prop := ∀ s ∈ segsOf os, s.drawnAs.Proper

/-- the object can be written to a file and read back: its layer has a name that stands for it, a wire is straight, of default width and its extensions are
those its style says, and the definition of a via is known -/
def DObj.Writable (T : DefTech) (vname : DVia → String) : DObj → Prop
  | .seg s => s.Ok ∧ s.st.Plain (T.width s.layer) ∧ T.layerNum (T.layerName s.layer) = some s.layer
  | .via v => T.viaDef (vname v) = some (v.cut - 1, v.cut) ∧ T.layerNum (T.layerName (v.cut - 1)) = some (v.cut - 1)
  | .patch p => T.layerNum (T.layerName p.layer) = some p.layer

/-- what is asked of the parts of the program that are not looked into: routes and cleaned up nets can be written -/
structure RunWritable (R : RunEnv) (T : DefTech) (vname : DVia → String) : Prop where
  width : ∀ l, R.E.width l = T.width l
  routes : ∀ i W D, ∀ o ∈ (R.router i W D).routes, o.Writable T vname
  clean : ∀ n os os', R.clean n os = some os' → (∀ o ∈ os, o.Writable T vname) → ∀ o ∈ os', o.Writable T vname

end TR
