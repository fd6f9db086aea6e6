import Verif.Geom.Model
/-! # Reading the vias of a technology

Models `getLefVias` (src/io/io.cpp:4531-4672), `addVia` (src/db/tech/frTechObject.h:112-118), `getCutLayerNum` (src/db/tech/frViaDef.h:109-116) and
`getCutClassIdx` (src/db/tech/frLayer.h:149-158).

Simplifications
* The numbers of the file are of any type `α`; the function `dbu` stands for the product with the database unit and `round` (4590-4593, 4627-4628).
* Text that is only printed is left out. -/
namespace TR

/-- what the LEF reader returns for a LAYER of a via: its rectangles, each by the four numbers of the file, and its polygons -/
structure LvLayer (α : Type) where
  name : String
  rects : List (α × α × α × α)
  polys : List (List (α × α))

/-- what the LEF reader returns for a VIA -/
structure LvVia (α : Type) where
  name : String
  isDefault : Bool
  layers : List (LvLayer α)

/-- a shape of a via: `frRect` or `frPolygon` -/
inductive LvFig where
  | rect (b : Box)
  | poly (ps : List Point)
deriving DecidableEq

/-- `frViaDef`: the shapes on the lower metal, on the cut layer and on the upper metal, each with the layer number that it carries, and the index of the cut class -/
structure LvDef where
  name : String
  isDefault : Bool
  layer1 : List (Int × LvFig)
  cut : List (Int × LvFig)
  layer2 : List (Int × LvFig)
  cls : Option Nat
deriving DecidableEq

/-- what is read of the technology: the number of a layer by its name, and the cut classes of a layer, by width and length -/
structure LvTech where
  num : String → Option Int
  classes : Int → List (Int × Int)

/-- `lNum2Int[num] = i` (src/io/io.cpp:4559): a sorted map whose key keeps the last value -/
def lvPut (k : Int) (v : Nat) : List (Int × Nat) → List (Int × Nat)
  | [] => [(k, v)]
  | (k', v') :: t => if k < k' then (k, v) :: (k', v') :: t else if k = k' then (k, v) :: t else (k', v') :: lvPut k v t

/-- the first loop (src/io/io.cpp:4551-4560); `none`: a layer has an unknown name and the via is skipped -/
def lvMap {α : Type} (t : LvTech) : List (LvLayer α) → Nat → List (Int × Nat) → Option (List (Int × Nat))
  | [], _, m => some m
  | l :: ls, i, m => match t.num l.name with
    | none => none
    | some n => lvMap t ls (i + 1) (lvPut n i m)

/-- the shapes of one layer: first the rectangles and then the polygons (src/io/io.cpp:4589-4646) -/
def lvFigs {α : Type} (dbu : α → Int) (n : Int) (l : LvLayer α) : List (Int × LvFig) :=
  l.rects.map (fun r => (n, LvFig.rect (Box.mk4 (dbu r.1) (dbu r.2.1) (dbu r.2.2.1) (dbu r.2.2.2)))) ++
  l.polys.map (fun ps => (n, LvFig.poly (ps.map (fun p => ⟨dbu p.1, dbu p.2⟩))))

/-- one round of the loop over the map: `cnt` is 0, 1 or more (src/io/io.cpp:4583-4648) -/
def lvAdd {α : Type} (dbu : α → Int) (ls : List (LvLayer α)) (m : Int × Nat) (cnt : Nat) (d : LvDef) : LvDef :=
  match ls[m.2]? with
  | none => d
  | some l =>
    if cnt = 0 then { d with layer1 := d.layer1 ++ lvFigs dbu m.1 l }
    else if cnt = 1 then { d with cut := d.cut ++ lvFigs dbu m.1 l }
    else { d with layer2 := d.layer2 ++ lvFigs dbu m.1 l }

/-- the loop over the map, in the order of layer numbers (src/io/io.cpp:4582-4648) -/
def lvLoop {α : Type} (dbu : α → Int) (ls : List (LvLayer α)) : List (Int × Nat) → Nat → LvDef → LvDef
  | [], _, d => d
  | m :: ms, cnt, d => lvLoop dbu ls ms (cnt + 1) (lvAdd dbu ls m cnt d)

/-- `getCutClassIdx(width, length)`: the loop does not stop at a match (src/db/tech/frLayer.h:149-158) -/
def lvClassLoop (w len : Int) : List (Int × Int) → Nat → Option Nat → Option Nat
  | [], _, r => r
  | c :: cs, i, r => lvClassLoop w len cs (i + 1) (if c.1 = w ∧ c.2 = len then some i else r)

def lvClass (t : LvTech) (n : Int) (b : Box) : Option Nat := lvClassLoop b.width b.length (t.classes n) 0 none

/-- the loop over the cut shapes, left at the first rectangle with a class (src/io/io.cpp:4659-4671) -/
def lvCutClass (t : LvTech) (n : Int) : List (Int × LvFig) → Option Nat
  | [] => none
  | (_, .poly _) :: fs => lvCutClass t n fs
  | (_, .rect b) :: fs => match lvClass t n b with
    | some i => some i
    | none => lvCutClass t n fs

/-- what becomes of a VIA: the program ends, the via is left out, or it is stored -/
inductive LvOut where
  | exits
  | skipped
  | stored (d : LvDef)
deriving DecidableEq

/-- `getLefVias` (src/io/io.cpp:4531-4672) -/
def lvRead {α : Type} (t : LvTech) (dbu : α → Int) (v : LvVia α) : LvOut :=
  if v.layers.length ≠ 3 then .exits
  else match lvMap t v.layers 0 [] with
    | none => .skipped
    | some m => match m.head?, m.getLast? with
      | some lo, some hi =>
        if lo.1 + 2 ≠ hi.1 then .exits
        else
          let d := lvLoop dbu v.layers m 0 ⟨v.name, v.isDefault, [], [], [], none⟩
          match d.cut with
          | [] => .exits
          | c :: _ => .stored { d with cls := lvCutClass t c.1 d.cut }
      | _, _ => .exits

/-- the vias of the technology: `vias` and `name2via` -/
structure LvDb where
  vias : List LvDef
  byName : List (String × Nat)

/-- `addVia` (src/db/tech/frTechObject.h:112-118): a second via of the same name is stored as well, and the name stands for it from then on -/
def LvDb.add (s : LvDb) (d : LvDef) : LvDb :=
  ⟨s.vias ++ [d], (d.name, s.vias.length) :: s.byName.filter (fun p => p.1 ≠ d.name)⟩

/-- the VIAs of a file, in order; `none`: the program ends -/
def lvReadAll {α : Type} (t : LvTech) (dbu : α → Int) : List (LvVia α) → LvDb → Option LvDb
  | [], s => some s
  | v :: vs, s => match lvRead t dbu v with
    | .exits => none
    | .skipped => lvReadAll t dbu vs s
    | .stored d => lvReadAll t dbu vs (s.add d)

/-- `name2via.find(name)` -/
def LvDb.find (s : LvDb) (name : String) : Option LvDef := match s.byName.find? (fun p => p.1 == name) with
  | none => none
  | some p => s.vias[p.2]?

end TR
