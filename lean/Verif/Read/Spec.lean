import Verif.Read.Model
import Verif.Geom.Spec
/-! # Specification: what a file says

Independent of the reader: the components, pins and nets of a list of records, and which pins a connection names. -/
namespace TR

/-- the components of the file, in order -/
def compsOf (rs : List DefRec) : List DefComp := rs.filterMap (fun | .comp c => some c | _ => none)
/-- the pins of the design, in order -/
def topPinsOf (rs : List DefRec) : List DefPin := rs.filterMap (fun | .pin p => some p | _ => none)
/-- the nets and special nets of the file, in order -/
def netsOf (rs : List DefRec) : List DefNet := rs.filterMap (fun | .net n => some n | _ => none)
/-- the track statements of the file, in order -/
def tracksOf (rs : List DefRec) : List DefTrack := rs.filterMap (fun | .tracks t => some t | _ => none)
/-- the blockages of the file, in order -/
def blksOf (rs : List DefRec) : List DefBlk := rs.filterMap (fun | .blk b => some b | _ => none)

/-- `i` is the last position of the list whose element has the name -/
def LastAt (name : α → String) (l : List α) (n : String) (i : Nat) : Prop :=
  ∃ a, l[i]? = some a ∧ name a = n ∧ ∀ j b, i < j → l[j]? = some b → name b ≠ n

/-- `i` is the first position of the list whose element has the name -/
def FirstAt (name : α → String) (l : List α) (n : String) (i : Nat) : Prop :=
  ∃ a, l[i]? = some a ∧ name a = n ∧ ∀ j b, j < i → l[j]? = some b → name b ≠ n

/-- the library cell with the name (the last one given) -/
def CellIs (lib : List RCell) (n : String) (c : RCell) : Prop := ∃ i, LastAt RCell.name lib n i ∧ lib[i]? = some c

/-- With the records `before` read, the connection `(c.1 c.2)` names the pin: `( PIN p )` the last pin of the design
called `p`; `( inst p )` the first terminal `p` of the component; `( * p )` that of every component. -/
def Names (lib : List RCell) (before : List DefRec) (c : String × String) : PinRef → Prop
  | .top i => c.1 = "PIN" ∧ LastAt DefPin.name (topPinsOf before) c.2 i
  | .cell i k => c.1 ≠ "PIN" ∧ ∃ d cell, (compsOf before)[i]? = some d ∧ (c.1 = "*" ∨ c.1 = d.id) ∧
      CellIs lib d.cell cell ∧ FirstAt RTerm.name cell.terms c.2 k

/-- the net number `j` of the file names the pin -/
def NamedBy (lib : List RCell) (rs : List DefRec) (j : Nat) (r : PinRef) : Prop :=
  ∃ pre n post, rs = pre ++ .net n :: post ∧ (netsOf pre).length = j ∧ ∃ c ∈ n.conns, Names lib pre c r

/-- all nets of the design -/
def RBlock.allNets (B : RBlock) : List RNet := B.nets ++ B.snets

/-- the words accepted after USE -/
def UseKnown (u : Option String) : Prop := ∀ s, u = some s → s = "SIGNAL" ∨ s = "CLOCK" ∨ s = "POWER" ∨ s = "GROUND"

/-- the kind a word after USE stands for; without USE it is an ordinary signal -/
inductive UseIs : Option String → UseKind → Prop
  | absent : UseIs none .normal
  | signal : UseIs (some "SIGNAL") .normal
  | clock : UseIs (some "CLOCK") .clock
  | power : UseIs (some "POWER") .power
  | ground : UseIs (some "GROUND") .ground

/-- a route path names at least one layer, and only known ones -/
def PathLayers (E : REnv) (p : List PathTok) : Prop :=
  (∃ n, PathTok.layer n ∈ p) ∧ ∀ n, PathTok.layer n ∈ p → ∃ l, E.layerNum n = some l

/-- a via can be read: the layers of a generated via are known; a via given by rectangles has a rectangle on an
unknown layer (it is skipped), or its rectangles use exactly three consecutive layers -/
def ViaFits (E : REnv) (v : DefVia) : Prop :=
  match v.gen with
  | some g => (∃ l, E.layerNum g.bot = some l) ∧ (∃ l, E.layerNum g.cut = some l) ∧ (∃ l, E.layerNum g.top = some l)
  | none => v.polys = false ∧ ((∃ r ∈ v.rects, E.layerNum r.1 = none) ∨
      ∃ a : Int, ∀ l, (∃ r ∈ v.rects, E.layerNum r.1 = some l) ↔ l = a ∨ l = a + 1 ∨ l = a + 2)

/-- a record that can be read after the records `before` -/
def Fits (E : REnv) (before : List DefRec) : DefRec → Prop
  | .tracks t => (∃ l, E.layerNum t.layer = some l) ∧ (t.dir = "X" ∨ t.dir = "Y")
  | .via v => ViaFits E v
  | .comp c => (∃ cell, CellIs E.lib c.cell cell) ∧ ∀ d ∈ compsOf before, d.id ≠ c.id
  | .pin p => UseKnown p.use ∧ p.multi = false ∧ (∀ r ∈ p.rects, ∃ l, E.layerNum r.1 = some l) ∧
      (∀ r ∈ p.polys, ∃ l, E.layerNum r.1 = some l)
  | .blk _ => True
  | .net n => (∀ c ∈ n.conns, c.1 = "*" ∨ ∃ r, Names E.lib before c r) ∧ (∀ p ∈ n.paths, PathLayers E p) ∧
      UseKnown n.use

/-- a track statement: the layer, whether the tracks run vertically, and first coordinate, number and step -/
structure TrackIs (E : REnv) (t : Int × Bool × TrackPat) (d : DefTrack) : Prop where
  layer : E.layerNum d.layer = some t.1
  dir : d.dir = if t.2.1 then "X" else "Y"
  pat : t.2.2 = ⟨d.start, d.num, d.step⟩

/-- the layer a blockage is kept for: a known layer and no restriction; without LAYER, and if it is no placement
blockage, the number -1 -/
def BlkOn (E : REnv) (d : DefBlk) (l : Int) : Prop :=
  (∃ n, d.layer = some n ∧ E.layerNum n = some l ∧ d.odd = false) ∨ (d.layer = none ∧ d.placement = false ∧ l = -1)

/-- the via definition with the name (the last one given) -/
def ViaDefIs (vias : List RViaDef) (n : String) (d : RViaDef) : Prop := ∃ i, LastAt RViaDef.name vias n i ∧ vias[i]? = some d

/-- the rectangle `b` on layer `l` is a fixed shape of the design, and whose -/
inductive FixedAt (B : RBlock) : Int → Box → ShapeOwner → Prop
  /-- a rectangle of a terminal of a component, moved to the place of the component -/
  | cellPin {i k : Nat} {I : RInst} {t : RTerm} {port : List PinFig} {l : Int} {b : Box} :
      B.insts[i]? = some I → I.cell.terms[k]? = some t → port ∈ t.ports → .rect l b ∈ port →
      FixedAt B l (b.transform I.xform) (.cellPin i k)
  /-- a rectangle of an obstruction of a component, moved to the place of the component -/
  | cellObs {i k : Nat} {I : RInst} {fs : List PinFig} {l : Int} {b : Box} :
      B.insts[i]? = some I → I.cell.obs[k]? = some fs → .rect l b ∈ fs →
      FixedAt B l (b.transform I.xform) (.cellObs i k)
  /-- a rectangle of a pin of the design -/
  | pin {i : Nat} {P : TopPin} {l : Int} {b : Box} : B.pins[i]? = some P → .rect l b ∈ P.figs → FixedAt B l b (.pin i)
  /-- a wire of a special net -/
  | wire {N : RNet} {k : Nat} {s : DSeg} : N ∈ B.snets → N.wires[k]? = some s → FixedAt B s.layer s.bbox (.wire N.id k)
  /-- a rectangle of a via of a special net, on the layer of its via definition, moved to the place of the via -/
  | via {N : RNet} {k : Nat} {v : OVia} {d : RViaDef} {b : Box} {l : Int} :
      N ∈ B.snets → N.vias[k]? = some v → ViaDefIs B.vias v.name d → (l, b) ∈ d.l1 ++ d.cut ++ d.l2 →
      FixedAt B l (b.transform ⟨v.o.x, v.o.y, .R0⟩) (.via N.id k)
  /-- a rectangle of a blockage -/
  | blk {i : Nat} {K : RBlk} {l : Int} {b : Box} : B.blks[i]? = some K → (l, b) ∈ K.rects → FixedAt B l b (.blk i)

/-- all rectangles of each of the three parts of a via definition lie on one layer -/
def RViaDef.OneLayer (d : RViaDef) : Prop :=
  (∀ r ∈ d.l1, ∀ s ∈ d.l1, r.1 = s.1) ∧ (∀ r ∈ d.cut, ∀ s ∈ d.cut, r.1 = s.1) ∧ (∀ r ∈ d.l2, ∀ s ∈ d.l2, r.1 = s.1)

/-- the place of the cut in row `i` and column `j` of a generated via whose first cut starts at `o` -/
def cutPlace (g : ViaGen) (o : Point) (i j : Nat) : Box :=
  ⟨⟨o.x + (j : Int) * (g.size.x + g.space.x), o.y + (i : Int) * (g.size.y + g.space.y)⟩,
   ⟨o.x + (j : Int) * (g.size.x + g.space.x) + g.size.x, o.y + (i : Int) * (g.size.y + g.space.y) + g.size.y⟩⟩

/-- width and height of the cuts of a generated via together -/
def cutsWidth (g : ViaGen) : Int := (g.cols : Int) * g.size.x + ((g.cols : Int) - 1) * g.space.x
def cutsHeight (g : ViaGen) : Int := (g.rows : Int) * g.size.y + ((g.rows : Int) - 1) * g.space.y

/-- a via definition is the one a rule generates: rows and columns of cuts with the given sizes and spacings, centred
on ORIGIN to within half a unit; on each routing layer one rectangle, that of all cuts enlarged by the enclosure and
moved by the offset -/
def GenViaIs (E : REnv) (g : ViaGen) (d : RViaDef) : Prop :=
  ∃ (b c t : Int) (o : Point), E.layerNum g.bot = some b ∧ E.layerNum g.cut = some c ∧ E.layerNum g.top = some t ∧
    (0 ≤ 2 * o.x + cutsWidth g - 2 * g.org.x ∧ 2 * o.x + cutsWidth g - 2 * g.org.x ≤ 1) ∧
    (0 ≤ 2 * o.y + cutsHeight g - 2 * g.org.y ∧ 2 * o.y + cutsHeight g - 2 * g.org.y ≤ 1) ∧
    (∀ l q, (l, q) ∈ d.cut ↔ l = c ∧ ∃ i j, i < g.rows ∧ j < g.cols ∧ q = cutPlace g o i j) ∧
    d.l1 = [(b, ⟨⟨o.x - g.botEnc.x + g.botOff.x, o.y - g.botEnc.y + g.botOff.y⟩,
      ⟨o.x + cutsWidth g + g.botEnc.x + g.botOff.x, o.y + cutsHeight g + g.botEnc.y + g.botOff.y⟩⟩)] ∧
    d.l2 = [(t, ⟨⟨o.x - g.topEnc.x + g.topOff.x, o.y - g.topEnc.y + g.topOff.y⟩,
      ⟨o.x + cutsWidth g + g.topEnc.x + g.topOff.x, o.y + cutsHeight g + g.topEnc.y + g.topOff.y⟩⟩)]

/-- sizes as they occur: at least one cut, no negative size, spacing or enclosure -/
def ViaGen.Sane (g : ViaGen) : Prop :=
  1 ≤ g.rows ∧ 1 ≤ g.cols ∧ 0 ≤ g.size.x ∧ 0 ≤ g.size.y ∧ 0 ≤ g.space.x ∧ 0 ≤ g.space.y ∧
  0 ≤ g.botEnc.x ∧ 0 ≤ g.botEnc.y ∧ 0 ≤ g.topEnc.x ∧ 0 ≤ g.topEnc.y

/-- a via definition is the one given by rectangles: those on the lowest of three consecutive layers, the cuts, and
those on the highest -/
def RectViaIs (E : REnv) (rs : List (String × Int × Int × Int × Int)) (d : RViaDef) : Prop :=
  ∃ a : Int, ∀ l b,
    ((l, b) ∈ d.l1 ↔ l = a ∧ ∃ r ∈ rs, E.layerNum r.1 = some a ∧ b = Box.mk4 r.2.1 r.2.2.1 r.2.2.2.1 r.2.2.2.2) ∧
    ((l, b) ∈ d.cut ↔ l = a + 1 ∧ ∃ r ∈ rs, E.layerNum r.1 = some (a + 1) ∧ b = Box.mk4 r.2.1 r.2.2.1 r.2.2.2.1 r.2.2.2.2) ∧
    ((l, b) ∈ d.l2 ↔ l = a + 2 ∧ ∃ r ∈ rs, E.layerNum r.1 = some (a + 2) ∧ b = Box.mk4 r.2.1 r.2.2.1 r.2.2.2.1 r.2.2.2.2)

/-- the via definition a DEF via stands for -/
def ViaIs (E : REnv) (v : DefVia) (d : RViaDef) : Prop :=
  d.name = v.name ∧ match v.gen with
    | some g => g.Sane → GenViaIs E g d
    | none => RectViaIs E v.rects d

/-- a DEF via is skipped: it is given by rectangles, one of them on an unknown layer -/
def ViaSkipped (E : REnv) (v : DefVia) : Prop := v.gen = none ∧ ∃ r ∈ v.rects, E.layerNum r.1 = none

end TR
