import Verif.GC.Shape
import Verif.GC.Corner
import Verif.Hole.Model
import Verif.Cut58.ReadModel
/-! # Reading the layers of a technology

Models `getLefLayers` (src/io/io.cpp:3503-4099) for routing layers and for the numbers of layers, `addLayer` (src/db/tech/frTechObject.h:106-111),
and the texts of LEF58_MINSTEP, LEF58_RECTONLY, LEF58_RIGHTWAYONGRIDONLY and LEF58_CORNERSPACING (src/io/io.cpp:1803-1870, 3168-3500).

Simplifications
* A layer of the LEF file is a record of what the LEF reader returns for it; lengths and areas are in database units, as the program rounds them (the
  step length and LENGTHSUM are cut off instead of rounded).
* MINIMUMCUT, antenna rules and LEF58 rules for line ends and spacing tables are left out: the last two are stored in lists that no other code reads.
* The text of a property is a list of words as in `Cut58/ReadModel.lean`. -/
namespace TR

/-! ### layers and their numbers -/

inductive LayKind where | masterslice | cut | routing
deriving DecidableEq

/-- `frLayer`: name and type; its number is its place in the list of layers -/
structure TLay where
  name : String
  kind : LayKind
deriving DecidableEq

/-- a layer of the LEF file: type ROUTING, CUT, MASTERSLICE or another, and name -/
inductive LefLay where
  | routing (name : String)
  | cut (name : String)
  | masterslice (name : String) (well : Bool)
  | other (name : String)
deriving DecidableEq

/-- one layer — src/io/io.cpp:3508-3558, 3972-4003, 4081-4097: default layers are added before the first one; the name of a MASTERSLICE layer only goes
into a local variable. -/
def readLay (ls : List TLay) : LefLay → List TLay
  | .routing n => (if ls.length = 0 then [⟨"FR_MASTERSLICE", .masterslice⟩, ⟨"FR_VIA", .cut⟩] else ls) ++ [⟨n, .routing⟩]
  | .cut n => (if ls.length = 0 then [⟨"FR_MASTERSLICE", .masterslice⟩] else ls) ++ [⟨n, .cut⟩]
  | .masterslice _ _ => ls
  | .other _ => ls

/-- all layers, in the order of the file -/
def readLays (ls : List LefLay) : List TLay := ls.foldl readLay []

/-- `name2layer` — src/db/tech/frTechObject.h:107: a later layer of the same name takes the place of an earlier one; the number of the layer. -/
def layNamed (ls : List TLay) (n : String) : Option Nat :=
  (List.range ls.length).foldl (fun r i => if (ls[i]?).map TLay.name = some n then some i else r) none

/-! ### rules of a routing layer -/

/-- a MINSTEP statement -/
structure LefStep where
  len : Int
  type : Option StepType
  lengthSum : Option Int
  maxEdges : Option Int
deriving DecidableEq

/-- a MINSTEP statement as a rule — src/io/io.cpp:3664-3697. -/
def stepOf (s : LefStep) : StepRule :=
  { len := s.len, maxLength := s.lengthSum.getD (-1), maxEdges := s.maxEdges,
    type := match s.maxEdges with
      | some _ => none
      | none => match s.type with
        | some t => some t
        | none => some .outside }

/-- the rule of the layer: each statement takes the place of the one before — src/io/io.cpp:3659-3703. -/
def readSteps (ss : List LefStep) : Option StepRule := ss.foldl (fun _ s => some (stepOf s)) none

/-- WIDTH and MINWIDTH — src/io/io.cpp:3560-3570. -/
def minWidthOf (width : Int) (minw : Option Int) : Int :=
  match minw with
  | some m => if m > width then width else m
  | none => width

/-- end-of-line spacing -/
structure LefEol where
  space : Int
  width : Int
  within : Int
  par : Option (Int × Int × Bool)
deriving DecidableEq

/-- a SPACING statement: what `lefiLayer` says about it -/
structure LefSpc where
  space : Int
  range : Bool := false
  lengthThreshold : Bool := false
  /-- ENDOFLINE: width, within, PARALLELEDGE (space, within, TWOEDGES) -/
  eol : Option (Int × Int × Option (Int × Int × Bool)) := none
  /-- SAMENET, and with PGONLY -/
  samenet : Option Bool := none
  notchLength : Bool := false
  endOfNotch : Bool := false

/-- a SPACINGTABLE -/
inductive LefTbl where
  | influence
  /-- lengths; widths with their spacings -/
  | parallel (lengths : List Int) (rows : List (Int × List Int))
  /-- widths, PRL, spacings -/
  | twoWidths (rows : List (Int × Option Int × List Int))

/-- what is kept of the spacing rules -/
structure SpcSt where
  minSpc : Option SpcRule := none
  eols : List LefEol := []
  samenet : Option (Int × Bool) := none

/-- one SPACING statement — src/io/io.cpp:3724-3798. -/
def readSpc (st : SpcSt) (s : LefSpc) : SpcSt :=
  if s.range then st
  else if s.lengthThreshold then st
  else match s.eol with
    | some e => { st with eols := st.eols ++ [⟨s.space, e.1, e.2.1, e.2.2⟩] }
    | none =>
      match s.samenet with
      | some pg => { st with samenet := some (s.space, pg) }
      | none =>
        if s.notchLength then st
        else if s.endOfNotch then st
        else { st with minSpc := some (.prl ⟨[0], [0], [[s.space]]⟩) }

/-- the run lengths of the rows of a TWOWIDTHS table — src/io/io.cpp:3872-3888: a row without PRL has that of the row before. -/
def twRows : Int → List (Int × Option Int × List Int) → List TwRow
  | _, [] => []
  | d, r :: t => match r.2.1 with
    | some p => ⟨r.1, p⟩ :: twRows p t
    | none => ⟨r.1, d⟩ :: twRows d t

/-- one SPACINGTABLE — src/io/io.cpp:3801-3911. -/
def readTbl (st : SpcSt) : LefTbl → SpcSt
  | .influence => st
  | .parallel ls rows => { st with minSpc := some (.prl ⟨rows.map (·.1), ls, rows.map (·.2)⟩) }
  | .twoWidths rows =>
    let d : Int := -(((rows.headD (0, none, [])).2.2.headD 0).natAbs : Int)
    { st with minSpc := some (.tw ⟨twRows d rows, rows.map (·.2.2)⟩) }

/-- all spacing rules of a layer: first SPACING, then SPACINGTABLE — src/io/io.cpp:3722-3912. -/
def readSpcs (ss : List LefSpc) (ts : List LefTbl) : SpcSt := ts.foldl readTbl (ss.foldl readSpc {})

/-! ### texts -/

/-- the words of LEF58_MINSTEP -/
inductive StepWord where | minstep | maxEdges | minAdj | noBetween | semi | other
deriving DecidableEq

def stepWord (s : String) : StepWord :=
  if s = "MINSTEP" then .minstep
  else if s = "MAXEDGES" then .maxEdges
  else if s = "MINADJACENTLENGTH" then .minAdj
  else if s = "NOBETWEENEOL" then .noBetween
  else if s = ";" then .semi
  else .other

/-- the variables of `getLef58MinStep`, `-1` as `none` where the rule does so -/
structure Step58St where
  len : Int := -1
  maxEdges : Option Int := none
  minAdj : Option Int := none
  eol : Option Int := none
  skip : Bool := false
deriving DecidableEq

/-- `frLef58MinStepConstraint` as stored -/
structure Step58R where
  len : Int
  maxEdges : Option Int
  minAdj : Option Int
  eol : Option Int
deriving DecidableEq

/-- `getLef58MinStep` — src/io/io.cpp:1803-1870: the rules that are added; a reading that fails ends the loop. -/
def step58Loop : List LTok → Step58St → List Step58R
  | [], _ => []
  | t :: ts, st =>
    match stepWord t.text with
    | .minstep => match ts with
      | ⟨_, some v⟩ :: ts' => step58Loop ts' { st with skip := false, len := v.1 }
      | _ => []
    | .maxEdges => match ts with
      | ⟨_, some v⟩ :: ts' => step58Loop ts' { st with maxEdges := some v.2 }
      | _ => []
    | .minAdj => match ts with
      | ⟨_, some v⟩ :: ts' => step58Loop ts' { st with minAdj := some v.1 }
      | _ => []
    | .noBetween => match ts with
      | ⟨_, some v⟩ :: ts' => step58Loop ts' { st with eol := some v.1 }
      | _ => []
    | .semi => if st.skip = true then step58Loop ts st else ⟨st.len, st.maxEdges, st.minAdj, st.eol⟩ :: step58Loop ts st
    | .other => step58Loop ts { st with skip := true }

/-- the words of LEF58_CORNERSPACING -/
inductive CornWord where
  | semi | cornerSpacing | convex | concave | exceptSameNet | exceptSameMetal | width | cornerOnly | exceptEol | exceptJog | minLength | exceptNotch | spacing
  | other
deriving DecidableEq

def cornWord (s : String) : CornWord :=
  if s = ";" then .semi
  else if s = "CORNERSPACING" then .cornerSpacing
  else if s = "CONVEXCORNER" then .convex
  else if s = "CONCAVECORNER" then .concave
  else if s = "EXCEPTSAMENET" then .exceptSameNet
  else if s = "EXCEPTSAMEMETAL" then .exceptSameMetal
  else if s = "WIDTH" then .width
  else if s = "CORNERONLY" then .cornerOnly
  else if s = "EXCEPTEOL" then .exceptEol
  else if s = "EXCEPTJOGLENGTH" then .exceptJog
  else if s = "MINLENGTH" then .minLength
  else if s = "EXCEPTNOTCH" then .exceptNotch
  else if s = "SPACING" then .spacing
  else .other

/-- what `getLef58CornerSpacing` is reading -/
inductive CornMode where | none | convex | concave | width
deriving DecidableEq

/-- the variables of `getLef58CornerSpacing`; SAMEMASK, CORNERONLY, EXCEPTJOGLENGTH, EDGELENGTH, INCLUDELSHAPE, MINLENGTH, EXCEPTNOTCH, EXCEPTSAMENET and
EXCEPTSAMEMETAL, which no check reads, are not kept -/
structure CornSt where
  corner : Bool := false
  mode : CornMode := .none
  hasConvex : Bool := false
  hasConcave : Bool := false
  eol : Option Int := none
  rows : List (List Int) := []
  cur : List Int := []
  entries : Nat := 0

/-- how the reading of a text of LEF58_CORNERSPACING ends: with the variables, with an error (`return 1`), or with an exception that is not caught -/
inductive CornEnd where
  | ok (st : CornSt)
  | error
  | throw

/-- does a number follow the first EXCEPTNOTCH? — src/io/io.cpp:3279-3297 -/
def notchLen : List LTok → Bool
  | [] => false
  | t :: ts => if cornWord t.text = .exceptNotch then
      match ts with
      | ⟨_, some _⟩ :: _ => true
      | _ => false
    else notchLen ts

/-- WIDTH — src/io/io.cpp:3346-3365: the row before is finished. -/
def cornRow (st : CornSt) : Option CornSt :=
  if st.cur = [] then some { st with mode := .width, cur := [] }
  else if st.entries = 0 then some { st with mode := .width, rows := st.rows ++ [st.cur], entries := min st.cur.length 3, cur := [] }
  else if st.entries ≠ st.cur.length then none
  else some { st with mode := .width, rows := st.rows ++ [st.cur], cur := [] }

/-- a word in a row of the table — src/io/io.cpp:3423-3434: SPACING is passed over, any other word must be a number. -/
def cornNum (st : CornSt) (t : LTok) : Option CornSt :=
  if cornWord t.text = .spacing then some st
  else t.num.map (fun v => { st with cur := st.cur ++ [v.1] })

/-- the loop of `getLef58CornerSpacing` — src/io/io.cpp:3299-3436. -/
def cspLoop (notch : Bool) : List LTok → CornSt → CornEnd
  | [], st => .ok st
  | t :: ts, st =>
    if cornWord t.text = .semi then cspLoop notch ts { st with corner := false, mode := .none }
    else if st.corner = false ∧ cornWord t.text = .cornerSpacing then cspLoop notch ts { st with corner := true }
    else if st.corner = true ∧ cornWord t.text = .convex then cspLoop notch ts { st with mode := .convex, hasConvex := true }
    else if st.corner = true ∧ cornWord t.text = .concave then cspLoop notch ts { st with mode := .concave, hasConcave := true }
    else if st.corner = true ∧ (cornWord t.text = .exceptSameNet ∨ cornWord t.text = .exceptSameMetal) then cspLoop notch ts { st with mode := .none }
    else if st.corner = true ∧ cornWord t.text = .width then
      match cornRow st with
      | some st' => cspLoop notch ts st'
      | none => .error
    else if st.mode = .width then
      match cornNum st t with
      | some st' => cspLoop notch ts st'
      | none => .throw
    else if st.mode = .convex ∧ cornWord t.text = .cornerOnly then
      match ts with
      | ⟨_, some _⟩ :: ts' => cspLoop notch ts' st
      | _ => .ok st
    else if st.mode = .convex ∧ cornWord t.text = .exceptEol then
      match ts with
      | ⟨_, some v⟩ :: ts' => cspLoop notch ts' { st with eol := some v.1 }
      | _ => .ok { st with eol := some 0 }
    else if st.mode = .concave ∧ st.eol.isSome = true ∧ cornWord t.text = .exceptJog then
      match ts with
      | ⟨_, some _⟩ :: ts' => cspLoop notch ts' st
      | _ => .ok st
    else if st.mode = .concave ∧ cornWord t.text = .minLength then
      match ts with
      | ⟨_, some _⟩ :: ts' => cspLoop notch ts' st
      | _ => .ok st
    else if st.mode = .concave ∧ cornWord t.text = .exceptNotch ∧ notch = true then
      match ts with
      | ⟨_, some _⟩ :: ts' => cspLoop notch ts' st
      | _ => .ok st
    else cspLoop notch ts st

/-- the columns of the table — src/io/io.cpp:3449-3459; `none`: a row is too short, the program reads beyond its end. -/
def cornCols (three : Bool) : List (List Int) → Option (List (Int × Int × Int))
  | [] => some []
  | r :: t =>
    match r, cornCols three t with
    | w :: x :: rest, some c =>
      if three = true then
        match rest with
        | y :: _ => some ((w, x, y) :: c)
        | [] => none
      else some ((w, x, x) :: c)
    | _, _ => none

/-- what the text gives: a rule, nothing (an error is printed), or the program ends -/
inductive CornRead where
  | rule (r : CornRule)
  | nothing
  | crash

/-- `getLef58CornerSpacing` — src/io/io.cpp:3238-3500; `id` is the number the rule gets. -/
def readCorner (id : Nat) (ts : List LTok) : CornRead :=
  match cspLoop (notchLen ts) ts {} with
  | .throw => .crash
  | .error => .nothing
  | .ok st =>
    let rows := if st.cur = [] then st.rows else st.rows ++ [st.cur]
    match cornCols (decide (st.entries = 3)) rows with
    | none => .crash
    | some c =>
      if st.hasConvex = true then
        .rule ⟨id, .convex, st.eol, c.map (·.1), c.map (·.2.1), c.map (·.2.2), !decide (st.entries = 3)⟩
      else if st.hasConcave = true then
        .rule ⟨id, .concave, none, c.map (·.1), c.map (·.2.1), c.map (·.2.2), !decide (st.entries = 3)⟩
      else .nothing

end TR
