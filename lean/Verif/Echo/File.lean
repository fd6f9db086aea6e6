import Verif.Echo.Sec
import Verif.Echo.Grid
import Verif.Echo.Net
import Verif.Echo.SNet
import Verif.Echo.Pin
import Verif.Echo.Defs

/-!
# The written file

The calls that the library makes for a whole reference file, and what is written for them: `writeDef`
(src/io/defw.cpp:3010-3409) with the callbacks of the other modules of this directory. The first statements and the property
definitions are added in `Doc.lean`. Left out: history, and the sections for which there is no model of the statements (scan
chains, pin properties, styles, timing); fills and slots, which are never readable (C194).
-/

namespace TR

/-- a statement of a section -/
inductive EhStmt
  | comp (c : EhComp)
  | via (v : EhVia)
  | ndr (n : EhNdr)
  | reg (r : EhReg)
  | blk (b : EhBlk)
  | snet (n : EhSNet)
  | net (n : EhNet)
  | pin (p : EhPin)
  | group (g : EhGroup)
deriving DecidableEq, Repr

/-- the section of a statement -/
def EhStmt.kind : EhStmt → EhSecKind
  | .comp _ => .components | .via _ => .vias | .ndr _ => .nondefaultrules | .reg _ => .regions | .blk _ => .blockages
  | .snet _ => .specialnets | .net _ => .nets | .pin _ => .pins | .group _ => .groups

/-- statements that give a name -/
inductive EhNamed
  | design | technology | array | floorplan
deriving DecidableEq, Repr

def EhNamed.kw : EhNamed → EhKw
  | .design => .design | .technology => .technology | .array => .array | .floorplan => .floorplan

/-- a statement outside sections -/
inductive EhOne
  | die (ps : List (Int × Int))
  | track (t : EhTrack)
  | row (r : EhRow)
  | gcell (g : EhGcell)
  | name (k : EhNamed) (s : String)
  | divider (s : String)
  | busbits (s : String)
  | units (d : Int)
deriving DecidableEq, Repr

/-- a part of a file: a statement, or a section with the number in its header -/
inductive EhPart
  | one (o : EhOne)
  | sec (k : EhSecKind) (num : Int) (ss : List EhStmt)
deriving DecidableEq, Repr

/-- words of a file: the name of a section in its header, `END` with a name, any other word -/
inductive EhWord
  | head (k : EhSecKind)
  | fin (k : EhSecKind)
  | tok (t : EhTok)
deriving DecidableEq, Repr

/-- what is written for a statement of a section; `routes` are the routes of the router — src/io/defw.cpp:148-266,
301-712, 1209-1627, 2000-2266, 2338-2507, 2769-2828 -/
def EhStmt.text (routes : String → List (List PathTok)) : EhStmt → List EhTok
  | .comp c => ehComp c
  | .via v => ehVia v
  | .ndr n => ehNdr n
  | .reg r => ehReg r
  | .blk b => ehBlk b
  | .snet n => ehSNet n
  | .net n => ehNet (routes n.name) n
  | .pin p => ehPin p
  | .group g => ehGroup g

/-- what is written for another statement — src/io/defw.cpp:1628-1640, 1840-1862, 1916-1921, 1975-1980, 2272-2337, 2925-2930 -/
def EhOne.text : EhOne → List EhTok
  | .die ps => ehDie ps
  | .track t => ehTrack t
  | .row r => ehRow r
  | .gcell g => ehGcell g
  | .name k s => [.kw k.kw, .word s, .semi]
  | .divider s => [.kw .dividerchar, .quoted s, .semi]
  | .busbits s => [.kw .busbitchars, .quoted s, .semi]
  | .units d => [.kw .units, .kw .distance, .kw .microns, .num (ehG d), .semi]

/-- a call of the library -/
inductive EhCall
  | one (o : EhOne)
  | start (k : EhSecKind) (num : Int)
  | stmt (s : EhStmt)
  | fin (k : EhSecKind)
deriving DecidableEq, Repr

/-- the calls for a part, in the order of the file -/
def EhPart.calls : EhPart → List EhCall
  | .one o => [.one o]
  | .sec k num ss => .start k num :: (ss.map .stmt ++ [.fin k])

/-- what is written for calls; `n` is `numObjs` — `cs` (src/io/defw.cpp:1642-1673), `endfunc` (102-113), the ends of the
callbacks (e.g. 260-262), as in `ehSecRun` -/
def ehFileRun (routes : String → List (List PathTok)) (n : Int) : List EhCall → List EhWord
  | [] => []
  | .one o :: r => o.text.map .tok ++ ehFileRun routes n r
  | .start k num :: r => .head k :: .tok (.num num) :: .tok .semi :: ehFileRun routes num r
  | .stmt s :: r =>
      (s.text routes).map .tok ++ ((if ehByCount s.kind ∧ n - 1 ≤ 0 then [.fin s.kind] else []) ++ ehFileRun routes (n - 1) r)
  | .fin k :: r => (if ehByEnd k then [.fin k] else []) ++ ehFileRun routes n r

/-- the written file; `numObjs` is a global variable with an arbitrary value before — src/io/defw.cpp:52-60 -/
def ehFile (routes : String → List (List PathTok)) (n : Int) (ps : List EhPart) : List EhWord :=
  ehFileRun routes n (ps.flatMap EhPart.calls)

end TR
