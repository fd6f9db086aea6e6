import Verif.Geom.Model
import Verif.Def.Model
import Verif.Track.Model
/-! # Model: reading the library and the design

The callbacks that build the library cells from LEF (src/io/io.cpp:4101-4460) and the design from DEF
(src/io/io.cpp:72-1124), and the search structure over its fixed shapes (src/frRegionQuery.cpp:76-478).

Simplifications:
* The text level is not modelled: the input is the list of records in the order in which the parsers deliver them.
* LEF coordinates are given in database units (the code rounds `x * DBUPerUU`).
* Pointers are positions: a pin is given by the position of its component and of its terminal in the library cell,
  or by its position among the pins of the design; a net by its id.
* A net keeps its pins of the design and of components in one list (two vectors in the code).
* `none` stands for the end of the program with an error message. -/
namespace TR

/-! ### library cells -/

/-- a shape of a pin or an obstruction -/
inductive PinFig where
  | rect (layer : Int) (b : Box)
  | poly (layer : Int) (pts : List Point)
deriving DecidableEq, Repr

/-- items of a LEF geometry -/
inductive LefItem where
  | layer (n : String)
  | rect (xl yl xh yh : Int)
  | poly (pts : List Point)
  | other
deriving DecidableEq, Repr

/-- the items of a port or an obstruction — src/io/io.cpp:4231-4311, 4361-4447: a shape gets the layer named
last; without a known layer (`layerNum == -1`) it is skipped. -/
def lefFigs (layerNum : String → Option Int) : Option Int → List LefItem → List PinFig
  | _, [] => []
  | _, .layer n :: r => lefFigs layerNum (layerNum n) r
  | none, .rect _ _ _ _ :: r => lefFigs layerNum none r
  | some l, .rect xl yl xh yh :: r => .rect l (Box.mk4 xl yl xh yh) :: lefFigs layerNum (some l) r
  | none, .poly _ :: r => lefFigs layerNum none r
  | some l, .poly pts :: r => .poly l pts :: lefFigs layerNum (some l) r
  | cur, .other :: r => lefFigs layerNum cur r

/-- `frTermEnum`, `frNetEnum`: the kinds read from USE -/
inductive UseKind where
  | normal | clock | power | ground
deriving DecidableEq, Repr

/-- USE of a LEF pin, a DEF pin and a net — src/io/io.cpp:4202-4223, 908-927, 848-867. -/
def useKind : Option String → Option UseKind
  | none => some .normal
  | some s =>
    if s = "SIGNAL" then some .normal
    else if s = "CLOCK" then some .clock
    else if s = "POWER" then some .power
    else if s = "GROUND" then some .ground
    else none

structure LefPin where
  name : String
  use : Option String
  ports : List (List LefItem)

structure LefMacro where
  name : String
  origin : Point
  size : Point
  pins : List LefPin
  obs : List (List LefItem)

/-- `frTerm` of a library cell -/
structure RTerm where
  name : String
  use : UseKind
  ports : List (List PinFig)
deriving DecidableEq, Repr

/-- `frBlock` of a library cell -/
structure RCell where
  name : String
  bounds : List (List Point)
  terms : List RTerm
  obs : List (List PinFig)
deriving DecidableEq, Repr

/-- `getLefPins` — src/io/io.cpp:4175-4332. -/
def readLefPin (layerNum : String → Option Int) (p : LefPin) : Option RTerm :=
  (useKind p.use).map (fun u => ⟨p.name, u, p.ports.map (lefFigs layerNum none)⟩)

def readLefPins (layerNum : String → Option Int) : List LefPin → Option (List RTerm)
  | [] => some []
  | p :: r => (readLefPin layerNum p).bind (fun t => (readLefPins layerNum r).map (t :: ·))

/-- `getLefMacros`, `getLefPins`, `getLefObs` between the begin and the end of a macro — src/io/io.cpp:4101-4129,
4175-4460 (the macro class is left out). -/
def readMacro (layerNum : String → Option Int) (m : LefMacro) : Option RCell :=
  (readLefPins layerNum m.pins).map (fun ts =>
    ⟨m.name, [lefBoundary m.origin m.size], ts, m.obs.map (lefFigs layerNum none)⟩)

def readLef (layerNum : String → Option Int) : List LefMacro → Option (List RCell)
  | [] => some []
  | m :: r => (readMacro layerNum m).bind (fun c => (readLef layerNum r).map (c :: ·))

/-- position of the last element with a property: the entry of a name in a `std::map` that is overwritten -/
def lastIdx (f : α → Bool) : List α → Option Nat
  | [] => none
  | a :: l => match lastIdx f l with
    | some i => some (i + 1)
    | none => if f a then some 0 else none

/-- `name2refBlock` — src/frDesign.h:68-71: of two cells with one name the later is used. -/
def cellNamed (lib : List RCell) (n : String) : Option RCell :=
  (lastIdx (fun c => c.name == n) lib).bind (fun i => lib[i]?)

/-! ### the records of a DEF file -/

structure DefTrack where
  dir : String
  layer : String
  start : Int
  num : Int
  step : Int

structure DefComp where
  id : String
  cell : String
  org : Point
  ori : Fin 8

structure DefPin where
  name : String
  use : Option String
  multi : Bool
  rects : List (String × Int × Int × Int × Int)
  polys : List (String × List Point)
  org : Point
  ori : Fin 8

/-- `odd`: COMPONENT, SLOTS, FILLS, PUSHDOWN, EXCEPTPGNET, MASK, SPACING or DESIGNRULEWIDTH is given -/
structure DefBlk where
  layer : Option String
  placement : Bool
  odd : Bool
  rects : List (Int × Int × Int × Int)

structure DefNet where
  special : Bool
  name : String
  conns : List (String × String)
  paths : List (List PathTok)
  use : Option String

/-- a via generated by a rule -/
structure ViaGen where
  bot : String
  cut : String
  top : String
  size : Point
  space : Point
  botEnc : Point
  topEnc : Point
  org : Point
  botOff : Point
  topOff : Point
  rows : Nat
  cols : Nat

structure DefVia where
  name : String
  gen : Option ViaGen
  rects : List (String × Int × Int × Int × Int)
  polys : Bool

inductive DefRec where
  | tracks (t : DefTrack)
  | via (v : DefVia)
  | comp (c : DefComp)
  | pin (p : DefPin)
  | blk (b : DefBlk)
  | net (n : DefNet)

/-! ### the design -/

/-- a pin: of the design, or of a component -/
inductive PinRef where
  | top (i : Nat)
  | cell (i k : Nat)
deriving DecidableEq, Repr

/-- `frInst` with the ids of its terminals and blockages -/
structure RInst where
  id : Nat
  name : String
  cell : RCell
  org : Point
  ori : Orient
  terms : List Nat
  obs : List Nat

/-- `frTerm` of the design -/
structure TopPin where
  id : Nat
  name : String
  use : UseKind
  figs : List PinFig

structure RNet where
  id : Nat
  name : String
  pins : List PinRef
  use : UseKind
  wires : List DSeg
  vias : List OVia

structure RBlk where
  id : Nat
  rects : List (Int × Box)

/-- `frViaDef` -/
structure RViaDef where
  name : String
  l1 : List (Int × Box)
  cut : List (Int × Box)
  l2 : List (Int × Box)
deriving DecidableEq, Repr

/-- the block being read, the vias of the technology and the counters of the parser -/
structure RBlock where
  vias : List RViaDef
  tracks : List (Int × Bool × TrackPat) := []
  insts : List RInst := []
  pins : List TopPin := []
  nets : List RNet := []
  snets : List RNet := []
  blks : List RBlk := []
  pinNet : PinRef → Option Nat := fun _ => none
  nInst : Nat := 0
  nTerm : Nat := 0
  nNet : Nat := 0
  nBlk : Nat := 0

/-- the technology and the library -/
structure REnv where
  layerNum : String → Option Int
  layerName : Int → String
  width : Int → Nat
  lib : List RCell

/-- `frOrientEnum(int)` — src/frBaseTypes.h:58-67; the DEF parser numbers N W S E FN FW FS FE from 0 to 7. -/
def orientOf (i : Fin 8) : Orient := [.R0, .R90, .R180, .R270, .MY, .MXR90, .MX, .MYR90][i.val]

/-- `getDefTracks` — src/io/io.cpp:1020-1054 -/
def readTracks (E : REnv) (B : RBlock) (t : DefTrack) : Option RBlock :=
  (E.layerNum t.layer).bind (fun l =>
    if t.dir = "X" then some { B with tracks := B.tracks ++ [(l, true, ⟨t.start, t.num, t.step⟩)] }
    else if t.dir = "Y" then some { B with tracks := B.tracks ++ [(l, false, ⟨t.start, t.num, t.step⟩)] }
    else none)

/-- `getDefComponents` — src/io/io.cpp:413-476 -/
def readComp (E : REnv) (B : RBlock) (c : DefComp) : Option RBlock :=
  (cellNamed E.lib c.cell).bind (fun cell =>
    if B.insts.any (fun i => i.name == c.id) then none
    else some { B with
      insts := B.insts ++ [⟨B.nInst, c.id, cell, c.org, orientOf c.ori,
        (List.range cell.terms.length).map (B.nTerm + ·), (List.range cell.obs.length).map (B.nBlk + ·)⟩]
      nInst := B.nInst + 1
      nTerm := B.nTerm + cell.terms.length
      nBlk := B.nBlk + cell.obs.length })

def pinRects (E : REnv) (t : Xform) : List (String × Int × Int × Int × Int) → Option (List PinFig)
  | [] => some []
  | (n, xl, yl, xh, yh) :: r => (E.layerNum n).bind (fun l =>
      (pinRects E t r).map (PinFig.rect l ((Box.mk4 xl yl xh yh).transform t) :: ·))

def pinPolys (E : REnv) (t : Xform) : List (String × List Point) → Option (List PinFig)
  | [] => some []
  | (n, pts) :: r => (E.layerNum n).bind (fun l =>
      (pinPolys E t r).map (PinFig.poly l (pts.map (Point.transform · t)) :: ·))

/-- `getDefTerminals` — src/io/io.cpp:900-1018 -/
def readPin (E : REnv) (B : RBlock) (p : DefPin) : Option RBlock :=
  (useKind p.use).bind (fun u =>
    if p.multi then none
    else
      let t : Xform := ⟨p.org.x, p.org.y, orientOf p.ori⟩
      (pinRects E t p.rects).bind (fun a => (pinPolys E t p.polys).map (fun b =>
        { B with pins := B.pins ++ [⟨B.nTerm, p.name, u, a ++ b⟩], nTerm := B.nTerm + 1 })))

/-- `getDefBlockages` — src/io/io.cpp:72-167: a blockage that is skipped uses up its id; without LAYER the layer
number stays -1. -/
def readBlk (E : REnv) (B : RBlock) (b : DefBlk) : RBlock :=
  let B1 := { B with nBlk := B.nBlk + 1 }
  let keep (l : Int) : RBlock :=
    { B1 with blks := B1.blks ++ [⟨B.nBlk, b.rects.map (fun r => (l, Box.mk4 r.1 r.2.1 r.2.2.1 r.2.2.2))⟩] }
  match b.layer with
  | some n => match E.layerNum n with
    | none => B1
    | some l => if b.odd then B1 else keep l
  | none => if b.placement then B1 else keep (-1)

/-- the cuts of a generated via before they are moved — src/io/io.cpp:254-270 -/
def genCuts (v : ViaGen) : List Box :=
  (List.range v.rows).flatMap (fun (i : Nat) => (List.range v.cols).map (fun (j : Nat) =>
    let x : Int := (j : Int) * (v.size.x + v.space.x)
    let y : Int := (i : Int) * (v.size.y + v.space.y)
    Box.mk4 x y (x + v.size.x) (y + v.size.y)))

/-- `currX`, `currY` after the loops — src/io/io.cpp:252-273 -/
def genSpan (v : ViaGen) : Point :=
  ⟨(if v.rows = 0 then 0 else v.cols * (v.size.x + v.space.x)) - v.space.x,
   v.rows * (v.size.y + v.space.y) - v.space.y⟩

/-- a generated via — src/io/io.cpp:229-311; `-currX / 2` is `(-currX) / 2`, rounded towards zero. -/
def ruleVia (E : REnv) (name : String) (v : ViaGen) : Option RViaDef :=
  (E.layerNum v.cut).bind (fun c => (E.layerNum v.bot).bind (fun b => (E.layerNum v.top).map (fun t =>
    let s := genSpan v
    let o : Point := ⟨(-s.x).tdiv 2 + v.org.x, (-s.y).tdiv 2 + v.org.y⟩
    let encl (e off : Point) : Box :=
      (Box.mk4 (0 - e.x) (0 - e.y) (s.x + e.x) (s.y + e.y)).transform ⟨o.x + off.x, o.y + off.y, .R0⟩
    ⟨name, [(b, encl v.botEnc v.botOff)], (genCuts v).map (fun q => (c, q.transform ⟨o.x, o.y, .R0⟩)),
     [(t, encl v.topEnc v.topOff)]⟩)))

/-- the rectangles of a via with the numbers of their layers; `none`: some layer is unknown -/
def viaRects (E : REnv) : List (String × Int × Int × Int × Int) → Option (List (Int × Box))
  | [] => some []
  | (n, xl, yl, xh, yh) :: r => (E.layerNum n).bind (fun l =>
      (viaRects E r).map ((l, Box.mk4 xl yl xh yh) :: ·))

/-- a via given by rectangles — src/io/io.cpp:313-405; the layers are taken in the order of their numbers. -/
def rectVia (name : String) (rs : List (Int × Box)) : Option RViaDef :=
  match sortKeys intLt (rs.map Prod.fst) with
  | [a, b, c] => if a + 2 = c then
      some ⟨name, rs.filter (fun r => r.1 = a), rs.filter (fun r => r.1 = b), rs.filter (fun r => r.1 = c)⟩
    else none
  | _ => none

/-- `getDefVias` — src/io/io.cpp:169-411; a via with a rectangle on an unknown layer is skipped. -/
def readVia (E : REnv) (B : RBlock) (v : DefVia) : Option RBlock :=
  match v.gen with
  | some g => (ruleVia E v.name g).map (fun d => { B with vias := B.vias ++ [d] })
  | none =>
    if v.polys then none
    else match viaRects E v.rects with
      | none => some B
      | some rs => (rectVia v.name rs).map (fun d => { B with vias := B.vias ++ [d] })

/-- `name2via` — src/db/tech/frTechObject.h:112-118 -/
def viaNamed (vias : List RViaDef) (n : String) : Option RViaDef :=
  (lastIdx (fun v => v.name == n) vias).bind (fun i => vias[i]?)

def RViaDef.low (v : RViaDef) : Int := (v.l1.head?.map Prod.fst).getD 0
def RViaDef.cutNum (v : RViaDef) : Int := (v.cut.head?.map Prod.fst).getD 0

/-- what the reader of routes knows -/
def rdTech (E : REnv) (B : RBlock) : DefTech :=
  ⟨E.layerName, E.layerNum, E.width, fun n => (viaNamed B.vias n).map (fun v => (v.low, v.cutNum))⟩

/-- the terminal of a component: the first of the cell with the name — src/io/io.cpp:597-606 -/
def termOf (i : RInst) (p : String) : Option Nat := i.cell.terms.findIdx? (fun t => t.name == p)

/-- the pins of one connection — src/io/io.cpp:565-615 -/
def connPins (B : RBlock) (c : String × String) : Option (List PinRef) :=
  if c.1 = "PIN" then (lastIdx (fun p => p.name == c.2) B.pins).map (fun i => [.top i])
  else if c.1 = "*" then
    some ((List.range B.insts.length).filterMap (fun i =>
      (B.insts[i]?).bind (fun x => (termOf x c.2).map (fun k => .cell i k))))
  else (lastIdx (fun i => i.name == c.1) B.insts).bind (fun i =>
    (B.insts[i]?).bind (fun x => (termOf x c.2).map (fun k => [.cell i k])))

def connsPins (B : RBlock) : List (String × String) → Option (List PinRef)
  | [] => some []
  | c :: r => (connPins B c).bind (fun a => (connsPins B r).map (a ++ ·))

/-- `getDefNets` — src/io/io.cpp:534-898: the pins are linked in both directions, then the routes are read. -/
def readNet (E : REnv) (B : RBlock) (n : DefNet) : Option RBlock :=
  (connsPins B n.conns).bind (fun ps => (rdNet (rdTech E B) B.nNet n.paths).bind (fun f =>
    (useKind n.use).map (fun u =>
      let N : RNet := ⟨B.nNet, n.name, ps, u, f.1, f.2⟩
      { B with
        nets := if n.special then B.nets else B.nets ++ [N]
        snets := if n.special then B.snets ++ [N] else B.snets
        pinNet := fun r => if r ∈ ps then some B.nNet else B.pinNet r
        nNet := B.nNet + 1 })))

def readRec (E : REnv) (B : RBlock) : DefRec → Option RBlock
  | .tracks t => readTracks E B t
  | .via v => readVia E B v
  | .comp c => readComp E B c
  | .pin p => readPin E B p
  | .blk b => some (readBlk E B b)
  | .net n => readNet E B n

/-- `defrRead` with the callbacks — src/io/io.cpp:1069-1110 -/
def readRecs (E : REnv) : RBlock → List DefRec → Option RBlock
  | B, [] => some B
  | B, r :: rs => (readRec E B r).bind (fun B' => readRecs E B' rs)

/-- the design of a file, after the library with its vias has been read -/
def readDesign (E : REnv) (lefVias : List RViaDef) (rs : List DefRec) : Option RBlock :=
  readRecs E { vias := lefVias } rs

/-! ### the search structure over the fixed shapes -/

inductive ShapeOwner where
  | cellPin (i k : Nat)
  | cellObs (i k : Nat)
  | pin (i : Nat)
  | wire (net : Nat) (i : Nat)
  | via (net : Nat) (i : Nat)
  | blk (i : Nat)
deriving DecidableEq, Repr

/-- rectangles of a list of pin shapes, moved; other shapes only cause a message —
src/frRegionQuery.cpp:200-266 -/
def figShapes (t : Option Xform) (o : ShapeOwner) (fs : List PinFig) : List (Int × Box × ShapeOwner) :=
  fs.filterMap (fun
    | .rect l b => some (l, match t with | some t => b.transform t | none => b, o)
    | .poly _ _ => none)

def RInst.xform (i : RInst) : Xform := updatedXform ⟨i.org.x, i.org.y, i.ori⟩ (blockBBox i.cell.bounds default)

/-- `add(frInstTerm*)`, `add(frInstBlockage*)` for all terminals and blockages of a component —
src/frRegionQuery.cpp:200-222, 240-256, 390-396 -/
def instShapes (n : Nat) (i : RInst) : List (Int × Box × ShapeOwner) :=
  (List.range i.cell.terms.length).flatMap (fun k => ((i.cell.terms[k]?).map (fun t =>
    t.ports.flatMap (figShapes (some i.xform) (.cellPin n k)))).getD []) ++
  (List.range i.cell.obs.length).flatMap (fun k => ((i.cell.obs[k]?).map
    (figShapes (some i.xform) (.cellObs n k))).getD [])

/-- `add(frVia*)` — src/frRegionQuery.cpp:144-184 -/
def viaShapes (vias : List RViaDef) (o : ShapeOwner) (v : OVia) : List (Int × Box × ShapeOwner) :=
  ((viaNamed vias v.name).map (fun d =>
    (d.l1.map (fun r => (d.low, r.2.transform ⟨v.o.x, v.o.y, .R0⟩, o))) ++
    (d.l2.map (fun r => ((d.l2.head?.map Prod.fst).getD 0, r.2.transform ⟨v.o.x, v.o.y, .R0⟩, o))) ++
    (d.cut.map (fun r => (d.cutNum, r.2.transform ⟨v.o.x, v.o.y, .R0⟩, o))))).getD []

/-- wires and vias of a special net — src/frRegionQuery.cpp:444-458 -/
def snetShapes (vias : List RViaDef) (n : RNet) : List (Int × Box × ShapeOwner) :=
  (List.range n.wires.length).filterMap (fun k => (n.wires[k]?).map (fun s => (s.layer, s.bbox, .wire n.id k))) ++
  (List.range n.vias.length).flatMap (fun k => ((n.vias[k]?).map (viaShapes vias (.via n.id k))).getD [])

/-- `Impl::init` — src/frRegionQuery.cpp:380-478 (wires of ordinary nets are not added) -/
def fixedShapes (B : RBlock) : List (Int × Box × ShapeOwner) :=
  (List.range B.insts.length).flatMap (fun i => ((B.insts[i]?).map (instShapes i)).getD []) ++
  (List.range B.pins.length).flatMap (fun i => ((B.pins[i]?).map (fun p => figShapes none (.pin i) p.figs)).getD []) ++
  B.snets.flatMap (snetShapes B.vias) ++
  (List.range B.blks.length).flatMap (fun i => ((B.blks[i]?).map (fun b =>
    b.rects.map (fun r => (r.1, r.2, ShapeOwner.blk i)))).getD [])

/-- `query` — src/frRegionQuery.cpp:300-303; the R-tree is taken to return exactly the entries that meet the box -/
def queryShapes (B : RBlock) (q : Box) (l : Int) : List (Box × ShapeOwner) :=
  (fixedShapes B).filterMap (fun s => if s.1 = l ∧ s.2.1.overlaps q = true then some s.2 else none)

end TR
