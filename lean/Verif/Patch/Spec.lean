import Verif.Patch.Model
import Verif.Maze.GridSpec
/-!
# Specification for the minimum-area patches
-/
namespace TR

/-! ### runs of a path -/

/-- the maximal groups of consecutive points on one level -/
def runsOf : List MIdx → List (List MIdx)
  | [] => []
  | p :: ps =>
    match runsOf ps with
    | (q :: qs) :: rs => if p.z = q.z then (p :: q :: qs) :: rs else [p] :: (q :: qs) :: rs
    | rs => [p] :: rs

/-- a run of a path, with the levels the path comes from and goes to (`none`: start or end of the path) -/
structure PathRun where
  before : Option Int
  pts : List MIdx
  after : Option Int
deriving DecidableEq, Repr

/-- first and last point of a run and its level -/
def PathRun.first (r : PathRun) : MIdx := r.pts.headD ⟨0, 0, 0⟩
def PathRun.final (r : PathRun) : MIdx := r.pts.getLastD ⟨0, 0, 0⟩
def PathRun.level (r : PathRun) : Int := r.first.z

/-- level of a list of points -/
def levelOf (pts : List MIdx) : Int := (pts.headD ⟨0, 0, 0⟩).z

/-- the runs of a path with their surroundings -/
def situate (before : Option Int) : List (List MIdx) → List PathRun
  | [] => []
  | r :: rs => ⟨before, r, rs.head?.map levelOf⟩ :: situate (some (levelOf r)) rs

def pathRuns (pts : List MIdx) : List PathRun := situate none (runsOf pts)

/-- half of the enclosure, on level `z`, of the default via between `z` and the level `other` -/
def viaHalf (T : PatchTech) (z : Int) : Option Int → Int
  | none => 0
  | some other => if other < z then (T.halfEnc (z - 1)).2 else (T.halfEnc z).1

/-- length of the centre line through the points -/
def centreLen (g : Grid) : List MIdx → Nat
  | p :: q :: rest =>
    (coordAt g.xs p.x - coordAt g.xs q.x).natAbs + (coordAt g.ys p.y - coordAt g.ys q.y).natAbs + centreLen g (q :: rest)
  | _ => 0

/-- wire area of a run -/
def PathRun.wire (r : PathRun) (g : Grid) (T : PatchTech) : Int := centreLen g r.pts * T.width r.level

/-- area known to be there at the start of a run: half a via, or at the start of the path what the
map of areas says (if it says nothing the point lies on metal that is large enough) -/
def PathRun.atStart (r : PathRun) (T : PatchTech) (amap : MIdx → Option Int) : Int :=
  match r.before with
  | none => (amap r.first).getD (T.req r.level)
  | some b => viaHalf T r.level (some b)

/-- area known to be there at the end of a run -/
def PathRun.atEnd (r : PathRun) (T : PatchTech) (amap : MIdx → Option Int) : Int :=
  match r.after with
  | none => (amap r.final).getD 0
  | some a => viaHalf T r.level (some a)

/-- area of the metal of a run without a patch -/
def PathRun.area (r : PathRun) (g : Grid) (T : PatchTech) (amap : MIdx → Option Int) : Int :=
  r.atStart T amap + r.wire g T + r.atEnd T amap

/-- coordinate along the preferred direction -/
def alongIdx (horz : Bool) (m : MIdx) : Int := if horz then m.x else m.y

/-- a patch at `p` goes to the left (down) if the wire leaves `p` to the right, or leaves it
sideways and the other end `o` lies to the right -/
def goesLeft (horz : Bool) (p q o : MIdx) : Bool :=
  decide (alongIdx horz p < alongIdx horz q ∨ (alongIdx horz p = alongIdx horz q ∧ alongIdx horz p < alongIdx horz o))

/-- the side of a patch at the first of the points; `single` for a lone point -/
def sideAt (horz single : Bool) (o : MIdx) : List MIdx → Bool
  | p :: q :: _ => goesLeft horz p q o
  | _ => single

/-- the patch a run needs: nothing if its area suffices; otherwise what is missing when the metal
counts without the two half vias except the smaller one -/
def PathRun.need (r : PathRun) (g : Grid) (T : PatchTech) (amap : MIdx → Option Int) : Option PatchReq :=
  if r.area g T amap < T.req r.level then
    let s := viaHalf T r.level r.before
    let e := viaHalf T r.level r.after
    some { bp := r.first, ep := r.final,
           gap := T.req r.level - (r.area g T amap - s - e) - min s e
           bpLeft := sideAt (T.horz r.level) true r.final r.pts
           epLeft := sideAt (T.horz r.level) false r.first r.pts.reverse }
  else none

/-- a step between consecutive points: within a level, or one level straight up or down -/
def PatchStepOK (p q : MIdx) : Prop := p.z = q.z ∨ (p.x = q.x ∧ p.y = q.y ∧ (p.z - q.z).natAbs = 1)

/-! ### area of metal -/

/-- a unit square, given by its lower left corner, lies in a box -/
def InBox (b : Box) (c : Int × Int) : Prop :=
  b.left ≤ c.1 ∧ c.1 + 1 ≤ b.right ∧ b.bottom ≤ c.2 ∧ c.2 + 1 ≤ b.top

/-- the union of the boxes has at least the area `a`: `a` different unit squares lie in it -/
def CoversAtLeast (bs : List Box) (a : Int) : Prop :=
  ∃ cs : List (Int × Int), cs.Nodup ∧ a ≤ cs.length ∧ ∀ c ∈ cs, ∃ b ∈ bs, InBox b c

/-- a box moved to a point -/
def Box.moved (b : Box) (o : Point) : Box := ⟨⟨o.x + b.ll.x, o.y + b.ll.y⟩, ⟨o.x + b.ur.x, o.y + b.ur.y⟩⟩

/-- metal of a patch -/
def DPatch.metal (p : DPatch) : Box := p.off.moved p.o

/-- position of a node -/
def Grid.pos (g : Grid) (n : MIdx) : Point := ⟨coordAt g.xs n.x, coordAt g.ys n.y⟩

/-- metal of a straight wire of width `w` between two points on a horizontal or vertical line -/
def wireBox (horz : Bool) (a b : Point) (w : Int) : Box :=
  if horz then ⟨⟨min a.x b.x, a.y - w / 2⟩, ⟨max a.x b.x, a.y + w / 2⟩⟩
  else ⟨⟨a.x - w / 2, min a.y b.y⟩, ⟨a.x + w / 2, max a.y b.y⟩⟩

/-- the shape of a via, symmetric about its origin -/
def viaBox (hx hy : Int) : Box := ⟨⟨-hx, -hy⟩, ⟨hx, hy⟩⟩

/-- the points follow each other in one direction along the preferred direction of the layer -/
inductive StraightRun (g : Grid) (horz : Bool) (pts : List MIdx) : Prop where
  | up (row : ∀ p ∈ pts, ∀ q ∈ pts, alongIdx (!horz) p = alongIdx (!horz) q)
      (inc : pts.Pairwise (fun p q => alongIdx horz p < alongIdx horz q))
  | down (row : ∀ p ∈ pts, ∀ q ∈ pts, alongIdx (!horz) p = alongIdx (!horz) q)
      (dec : pts.Pairwise (fun p q => alongIdx horz q < alongIdx horz p))

/-- what the area theorems assume of a run between two vias: it is straight along the preferred
direction, the width is even, and the half areas are those of the given symmetric via shapes -/
structure RunMetal (g : Grid) (T : PatchTech) (r : PathRun) (x1 y1 x2 y2 : Int) : Prop where
  xInc : g.xs.Pairwise (· ≤ ·)
  yInc : g.ys.Pairwise (· ≤ ·)
  ne : r.pts ≠ []
  on : ∀ p ∈ r.pts, g.On p
  lvl : ∀ p ∈ r.pts, p.z = r.level
  straight : StraightRun g (T.horz r.level) r.pts
  before : r.before ≠ none
  after : r.after ≠ none
  wpos : 0 < T.width r.level
  even : T.width r.level % 2 = 0
  mfg : 0 < T.mfg
  nonneg : 0 ≤ x1 ∧ 0 ≤ y1 ∧ 0 ≤ x2 ∧ 0 ≤ y2
  half1 : viaHalf T r.level r.before = (viaBox x1 y1).width * (viaBox x1 y1).length / 2
  half2 : viaHalf T r.level r.after = (viaBox x2 y2).width * (viaBox x2 y2).length / 2

/-- the metal of a run: wire and the shapes of the two vias -/
def PathRun.metal (r : PathRun) (g : Grid) (T : PatchTech) (x1 y1 x2 y2 : Int) : List Box :=
  [wireBox (T.horz r.level) (g.pos r.first) (g.pos r.final) (T.width r.level),
   (viaBox x1 y1).moved (g.pos r.first), (viaBox x2 y2).moved (g.pos r.final)]

/-! ### choice of the end -/

/-- a node that carries a planar mark of a rule violation, a fixed shape or a marker -/
def Grid.Marked (g : Grid) (n : MIdx) : Prop := g.attr n .drcP ≠ 0 ∨ g.attr n .shapeP ≠ 0 ∨ g.attr n .markP ≠ 0

/-- the nodes (other than the first of the row or column) under the centre line of a patch at `n` -/
def UnderPatch (g : Grid) (n : MIdx) (horz left : Bool) (len : Int) (m : MIdx) : Prop :=
  g.On m ∧ m.z = n.z ∧ alongIdx (!horz) m = alongIdx (!horz) n ∧ 1 ≤ alongIdx horz m ∧
  (let c := fun k : MIdx => if horz then coordAt g.xs k.x else coordAt g.ys k.y
   if left then c n - len ≤ c m ∧ c m ≤ c n else c n ≤ c m ∧ c m ≤ c n + len)

end TR
