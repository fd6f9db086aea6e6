import Verif.TaWork.Model
import Verif.Cost.Spec
/-! Specification vocabulary for the costs of track assignment, independent of the code. -/
namespace TR

/-- the run length that is assumed between a shape `b` and metal `v` (both seen with x along the tracks): along the tracks if `v` lies above or below
`b`, across if it lies beside; a wire (`grows`) may run along the whole of `v` -/
def TaRun (grows : Bool) (b v : Box) (run : Int) : Prop :=
  (sharedY b v < 0 → run = if grows = true then v.right - v.left else min (b.right - b.left) (v.right - v.left)) ∧
  (0 ≤ sharedY b v → run = if grows = true then v.top - v.bottom else min (b.top - b.bottom) (v.top - v.bottom))

/-- metal `m` of another net is too near to the shape `box` of layer `l` -/
def TaNear (P : PanelTech) (l : Int) (grows : Bool) (box m : Box) : Prop :=
  ∃ r run d, P.c.spc l = some r ∧ TaRun grows (box.fr P.horz) (m.fr P.horz) run ∧ r.req box.width m.width run = some d ∧ Closer box m d

/-- spacings are not negative, and a table does not fail -/
def SpcTotal (P : PanelTech) (l : Int) : Prop := ∀ r, P.c.spc l = some r → ∀ w1 w2 p, ∃ d, r.req w1 w2 p = some d ∧ 0 ≤ d

/-- one of the boxes contains the point -/
def InSome (bs : List Box) (p : Point) : Prop := ∃ b ∈ bs, b.Has p

/-- the layer of the panel's direction that a via of cut layer `cut` is on: the one below, otherwise the one above -/
def ViaTracks (P : PanelTech) (cut fl : Int) : Prop :=
  let ok (l : Int) : Prop := P.c.bottom ≤ l ∧ l ≤ P.c.top ∧ P.routing l = true ∧ P.c.horz l = P.horz
  (fl = cut - 1 ∧ ok fl) ∨ (fl = cut + 1 ∧ ok fl ∧ ¬ ok (cut - 1))

end TR

namespace TR

/-- a cut `c` of a via at `p` is too near to the cut `box` for the rule; for a rule between centres, `le`: also if it is at the very distance -/
def TaCutNear (le : Bool) (r : CutSpRule) (box c : Box) (p : Point) : Prop :=
  (r.c2c = false ∧ Closer box c r.spacing) ∨
  (r.c2c = true ∧ ∃ m, IsCentre box m ∧
    if le = true then (m.x - p.x) * (m.x - p.x) + (m.y - p.y) * (m.y - p.y) ≤ r.spacing * r.spacing
    else (m.x - p.x) * (m.x - p.x) + (m.y - p.y) * (m.y - p.y) < r.spacing * r.spacing)

/-- … and the rule concerns the two: it is for different nets and for one layer; PARALLELOVERLAP: not if `c` lies above or below without a common
part along the tracks. Whether the rule is for cuts of a certain area (AREA) makes no difference. -/
def TaCutHit (P : PanelTech) (le : Bool) (r : CutSpRule) (box c : Box) (p : Point) : Prop :=
  r.sameNet = false ∧ r.second = none ∧ TaCutNear le r box c p ∧
  (r.adj = none → r.parOverlap = true → sharedY (box.fr P.horz) (c.fr P.horz) < 0 → 0 < sharedX (box.fr P.horz) (c.fr P.horz))

end TR

namespace TR

/-- a fixed object counts against the wires of net `n` -/
def AgainstNet (n : Nat) : CostOwner → Prop
  | .unknown => True
  | .net m => m ≠ n
  | .fig _ _ => False

/-- metal `box` of a via on layer `l` blocks point `pt` of layer `m`: for wires on its own layer if tracks run along it, for vias on the cut layers above
and below -/
def MetalBlocks (P : PanelTech) (box : Box) (l m : Int) (pt : Point) : Prop :=
  (P.horz = P.c.horz l ∧ m = l ∧ InSome (planarBlocks P box l) pt) ∨
  (m = l + 1 ∧ InSome (viaBlocks P box l true false) pt) ∨ (m = l - 1 ∧ InSome (viaBlocks P box l false false) pt)

/-- figure `g` blocks point `pt` of layer `m` for wires (on a routing layer) or vias (on a cut layer) of other nets: a wire does on its layer and the cut
layers above and below, a via does with its lower metal, its upper metal and, for vias, its cuts. Which places a shape blocks is said by C122 and C123. -/
def BlocksAt (P : PanelTech) (g : TaFig) (m : Int) (pt : Point) : Prop :=
  match g with
  | .seg l b e st =>
    (m = l ∧ InSome (planarBlocks P (DSeg.bbox ⟨0, l, b, e, st⟩) l) pt) ∨
    (m = l + 1 ∧ InSome (viaBlocks P (DSeg.bbox ⟨0, l, b, e, st⟩) l true true) pt) ∨
    (m = l - 1 ∧ InSome (viaBlocks P (DSeg.bbox ⟨0, l, b, e, st⟩) l false true) pt)
  | .via cut v o =>
    MetalBlocks P (v.l1.at o) (cut - 1) m pt ∨ MetalBlocks P (v.l2.at o) (cut + 1) m pt ∨
    (m = cut ∧ ∃ c ∈ v.cuts, ∃ x ∈ cutBlocks P (c.at o) cut, x.2.Has pt)

/-- wire `q` lies on a place that is blocked by a fixed object or by a wire of another net, all wires taken at their places `figs` -/
def TaConflict (P : PanelTech) (net : Nat → Nat) (figs : Nat → List TaFig) (fixed : List CostRec) (all : List Nat) (q : Nat) : Prop :=
  ∃ f ∈ figs q, ∃ pt, f.line.Has pt ∧
    ((∃ r ∈ fixed, r.layer = f.layer ∧ r.box.Has pt ∧ AgainstNet (net q) r.owner) ∨
      ∃ p ∈ all, net p ≠ net q ∧ ∃ g ∈ figs p, BlocksAt P g f.layer pt)

/-- a figure lies on the line `t` across the tracks -/
def TaFig.OnTrackLine (horz : Bool) (t : Int) : TaFig → Prop
  | .seg _ b e _ => if horz = true then b.y = t ∧ e.y = t else b.x = t ∧ e.x = t
  | .via _ _ o => if horz = true then o.y = t else o.x = t

def TaFig.IsSeg : TaFig → Prop
  | .seg _ _ _ _ => True
  | .via _ _ _ => False

/-- a panel at the beginning of a later pass: the wires of the panel and those of the neighbouring panels are different, each lies on one track
and has a segment; the layers have pitches; the tracks of the wires of other panels are not tracks of this panel; each wire of the panel has a
track of the panel in its GCell -/
structure TaPanel (P : PanelTech) (G : Nat → WireGuide) (figs : Nat → List TaFig) (fixed : List CostRec) (wires ext : List Nat) : Prop where
  nodup : (wires ++ ext).Nodup
  locs : ∀ l, StrictInc (P.locs l)
  proper : ∀ r ∈ fixed, r.box.Proper
  fixedOwner : ∀ r ∈ fixed, ∀ p k, r.owner ≠ .fig p k
  inLine : ∀ q ∈ wires ++ ext, (∃ f ∈ figs q, f.IsSeg) ∧ ∃ t, ∀ f ∈ figs q, f.OnTrackLine P.horz t
  pitch : ∀ q ∈ wires ++ ext, ∀ f ∈ figs q, (P.routing f.layer = true ∧ 0 < P.c.pitch f.layer) ∨
    (P.routing f.layer = false ∧ f.layer + 1 ≤ P.c.top ∧ P.routing (f.layer + 1) = true ∧ 0 < P.c.pitch (f.layer + 1))
  away : ∀ q ∈ ext, ∀ f ∈ figs q, ∀ l, ∀ t ∈ P.locs l, ¬ f.OnTrackLine P.horz t
  tracks : ∀ q ∈ wires, ∃ t ∈ P.locs (G q).l, (G q).lo ≤ t ∧ t < (G q).hi

end TR
