import Verif.LefVia.Model
/-! # Reading the via rules of a technology

Models `getLefViaRules` (src/io/io.cpp:4675-4802), `addViaRuleGenerate` (src/db/tech/frTechObject.h:125-128) and the setters of
`frViaRuleGenerate` (src/db/tech/frViaRuleGenerate.h:36-105). The numbers of the file and text that is only printed are
treated as in `LefVia.Model`. -/
namespace TR

/-- what the LEF reader returns for a LAYER of a via rule -/
structure LrLayer (α : Type) where
  name : String
  enc : Option (α × α) := none
  rect : Option (α × α × α × α) := none
  spacing : Option (α × α) := none

/-- what the LEF reader returns for a VIARULE -/
structure LrRule (α : Type) where
  name : String
  isDefault : Bool := false
  generate : Bool := true
  layers : List (LrLayer α)

/-- `frViaRuleGenerate` with the values that its constructor gives (src/db/tech/frViaRuleGenerate.h:39-41) -/
structure LrDef where
  name : String
  isDefault : Bool := false
  botEnc : Point := ⟨0, 0⟩
  cutRect : Box := Box.mk4 0 0 0 0
  cutSpacing : Point := ⟨0, 0⟩
  topEnc : Point := ⟨0, 0⟩
  layerNums : Int × Int × Int := (0, 0, 0)
deriving DecidableEq

/-- the layer by its name only, for the first loop, which is that of vias -/
def LrLayer.plain {α : Type} (l : LrLayer α) : LvLayer α := ⟨l.name, [], []⟩

/-- the enclosure of a layer: of the cut layer it is ignored (src/io/io.cpp:4734-4750) -/
def lrEnc {α : Type} (dbu : α → Int) (l : LrLayer α) (cnt : Nat) (d : LrDef) : LrDef := match l.enc with
  | none => d
  | some e => if cnt = 0 then { d with botEnc := ⟨dbu e.1, dbu e.2⟩ } else if cnt = 1 then d else { d with topEnc := ⟨dbu e.1, dbu e.2⟩ }

/-- the rectangle: only that of the cut layer is kept (src/io/io.cpp:4752-4769) -/
def lrRect {α : Type} (dbu : α → Int) (l : LrLayer α) (cnt : Nat) (d : LrDef) : LrDef := match l.rect with
  | none => d
  | some r => if cnt = 1 then { d with cutRect := Box.mk4 (dbu r.1) (dbu r.2.1) (dbu r.2.2.1) (dbu r.2.2.2) } else d

/-- the spacing: only that of the cut layer is kept (src/io/io.cpp:4777-4792) -/
def lrSpacing {α : Type} (dbu : α → Int) (l : LrLayer α) (cnt : Nat) (d : LrDef) : LrDef := match l.spacing with
  | none => d
  | some s => if cnt = 1 then { d with cutSpacing := ⟨dbu s.1, dbu s.2⟩ } else d

/-- the loop over the map, in the order of layer numbers (src/io/io.cpp:4729-4798) -/
def lrLoop {α : Type} (dbu : α → Int) (ls : List (LrLayer α)) : List (Int × Nat) → Nat → LrDef → LrDef
  | [], _, d => d
  | m :: ms, cnt, d => lrLoop dbu ls ms (cnt + 1) (match ls[m.2]? with
    | none => d
    | some l => lrSpacing dbu l cnt (lrRect dbu l cnt (lrEnc dbu l cnt d)))

/-- what becomes of a VIARULE -/
inductive LrOut where
  | exits
  | skipped
  | stored (d : LrDef)
deriving DecidableEq

/-- `getLefViaRules` (src/io/io.cpp:4675-4802) -/
def lrRead {α : Type} (t : LvTech) (dbu : α → Int) (v : LrRule α) : LrOut :=
  if v.layers.length ≠ 3 then .exits
  else match lvMap t (v.layers.map LrLayer.plain) 0 [] with
    | none => .skipped
    | some m => match m.head?, m.getLast? with
      | some lo, some hi =>
        if lo.1 + 2 ≠ hi.1 then .exits
        else if v.generate = false then .exits
        else .stored (lrLoop dbu v.layers m 0 { name := v.name, isDefault := v.isDefault })
      | _, _ => .exits

end TR
