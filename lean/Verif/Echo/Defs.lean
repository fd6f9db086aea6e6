import Verif.Echo.Ndr

/-!
# Property definitions, groups, and the first two statements of the file

Models `prop` (src/io/defw.cpp:1775-1818), the groups of `cls` (2441-2507), `versStr` and `casesens` (1906-1932). Numbers of
property definitions are whole numbers.
-/

namespace TR

/-- the kinds of objects that have properties -/
inductive EhOwner
  | design | net | specialnet | region | group | component | row | componentpin | nondefaultrule
deriving DecidableEq, Repr

/-- src/io/defw.cpp:1778-1795 -/
def EhOwner.kw : EhOwner → EhKw
  | .design => .design | .net => .net | .specialnet => .specialnet | .region => .region | .group => .group
  | .component => .component | .row => .row | .componentpin => .componentpin | .nondefaultrule => .nondefaultrule

/-- the type of a property, with what a definition may say about its value: `int` and `real` with range and default,
`str`, `qstr` with a default text, `nmap` for NAMEMAPSTRING -/
inductive EhPdVal
  | int (range : Option (Int × Int)) (num : Option Int)
  | real (range : Option (Int × Int)) (num : Option Int)
  | str
  | qstr (s : String)
  | nmap (s : String)
deriving DecidableEq, Repr

/-- a property definition -/
structure EhPd where
  owner : EhOwner
  name : String
  val : EhPdVal
deriving DecidableEq, Repr

/-- range and default value — src/io/defw.cpp:1804-1809 -/
def ehPdNums (r : Option (Int × Int)) (n : Option Int) : List EhTok :=
  r.toList.flatMap (fun r => [.kw .range, .num (ehG r.1), .num (ehG r.2)]) ++ n.toList.map (fun v => .num (ehG v))

/-- the text if there is one — src/io/defw.cpp:1810-1811, `hasString`: module/def/5.8-p029/def/defiProp.cpp:190-192 -/
def ehPdText (s : String) : List EhTok := if s = "" then [] else [.quoted s]

/-- the type and what follows; there is no word for the data type `N` — src/io/defw.cpp:1796-1811 -/
def ehPdVal : EhPdVal → List EhTok
  | .int r n => .kw .integer :: ehPdNums r n
  | .real r n => .kw .real :: ehPdNums r n
  | .str => [.kw .string]
  | .qstr s => .kw .string :: ehPdText s
  | .nmap s => ehPdText s

/-- a property definition — `prop`, src/io/defw.cpp:1775-1818 -/
def ehPd (p : EhPd) : List EhTok := [.kw p.owner.kw, .word p.name] ++ ehPdVal p.val ++ [.semi]

/-- a group: half perimeter, width and height; region by name or by rectangles (these and the sizes are only delivered for files of versions
before 5.5 — def.y:3412-3421, 3466-3491) -/
structure EhGroup where
  name : String
  members : List String := []
  perim : Option Int := none
  maxX : Option Int := none
  maxY : Option Int := none
  region : Option String := none
  boxes : List (Int × Int × Int × Int) := []
  props : List (String × EhVal × EhPT) := []
deriving DecidableEq, Repr

/-- the sizes — src/io/defw.cpp:2461-2471 -/
def ehGroupSoft (g : EhGroup) : List EhTok :=
  if g.maxX.isSome ∨ g.maxY.isSome ∨ g.perim.isSome then
    [.plus, .kw .soft] ++ g.perim.toList.flatMap (fun v => [.kw .maxhalf, .num v])
    ++ g.maxX.toList.flatMap (fun v => [.kw .maxx, .num v]) ++ g.maxY.toList.flatMap (fun v => [.kw .maxy, .num v])
  else []

/-- a group; there is no `+` before the rectangles of its region — src/io/defw.cpp:2442-2451, 2459-2507 -/
def ehGroup (g : EhGroup) : List EhTok :=
  [.minus, .word g.name] ++ g.members.map .word ++ ehGroupSoft g
  ++ g.region.toList.flatMap (fun r => [.plus, .kw .region, .word r])
  ++ g.boxes.flatMap (fun b => [.kw .region, .num b.1, .num b.2.1, .num b.2.2.1, .num b.2.2.2])
  ++ g.props.flatMap (fun p => .plus :: ehTyped p)
  ++ [.semi]

/-- the first statements of a reference file: the version in tenths, and whether names are case sensitive -/
structure EhHead where
  version : Option Nat := none
  sens : Option Bool := none
deriving DecidableEq, Repr

/-- `VersionNum` — module/def/5.8-p029/def/defrData.cpp:143 -/
def EhHead.vers (h : EhHead) : Nat := h.version.getD 57

/-- what is written: version 5.8 in any case; the other statement is only delivered for versions before 5.6 —
src/io/defw.cpp:1906-1913, 1923-1931, def.y:247-275 -/
def ehHead (h : EhHead) : List EhTok :=
  h.version.toList.flatMap (fun _ => [.kw .version, .num 58, .semi])
  ++ (if h.vers < 56 then h.sens.toList.flatMap (fun b => [.kw .casesens, .kw (if b then .on else .off), .semi]) else [])

end TR
