import Verif.Echo.File
import Verif.Echo.NetSpec
import Verif.Echo.SNetSpec
import Verif.Echo.PinSpec
import Verif.Echo.GridSpec
import Verif.Echo.NdrSpec
import Verif.Echo.DefsSpec

/-!
# Reading a file — def.y:276-300: statements and sections in any order
-/

namespace TR

/-- a statement of a section; `pt` gives the types of properties for each section; groups are those of version 5.8 -/
def ehReadStmt (pt : EhSecKind → String → Option EhPT) : EhSecKind → List EhTok → Option EhStmt
  | .components, ts => (ehReadComp (pt .components) ts).map .comp
  | .vias, ts => (ehReadVia ts).map .via
  | .nondefaultrules, ts => (ehReadNdr (pt .nondefaultrules) ts).map .ndr
  | .regions, ts => (ehReadReg (pt .regions) ts).map .reg
  | .blockages, ts => (ehReadBlk ts).map .blk
  | .specialnets, ts => (ehReadSNet (pt .specialnets) ts).map .snet
  | .nets, ts => (ehReadNet (pt .nets) ts).map .net
  | .pins, ts => (ehReadPin ts).map .pin
  | .groups, ts => (ehReadGroup false (pt .groups) ts).map .group
  | _, _ => none

/-- the numbers that units may have from version 5.6 on — module/def/5.8-p029/def/defrData.cpp:447-492 -/
def ehUnitsOk (d : Int) : Bool := [100, 200, 400, 800, 1000, 2000, 4000, 8000, 10000, 20000].contains d

/-- another statement; `pr` gives the types of properties of rows — def.y:305-372, 501-521 for names, characters and units -/
def ehReadOne (pr : String → Option EhPT) (ts : List EhTok) : Option EhOne :=
  match ts with
  | .kw .diearea :: _ => (ehReadDie ts).map .die
  | .kw .tracks :: _ => (ehReadTrack ts).map .track
  | .kw .row :: _ => (ehReadRow pr ts).map .row
  | .kw .gcellgrid :: _ => (ehReadGcell ts).map .gcell
  | [.kw .design, .word s, .semi] => some (.name .design s)
  | [.kw .technology, .word s, .semi] => some (.name .technology s)
  | [.kw .array, .word s, .semi] => some (.name .array s)
  | [.kw .floorplan, .word s, .semi] => some (.name .floorplan s)
  | [.kw .dividerchar, .quoted s, .semi] => some (.divider s)
  | [.kw .busbitchars, .quoted s, .semi] => some (.busbits s)
  | [.kw .units, .kw .distance, .kw .microns, .num d, .semi] => if ehUnitsOk d then some (.units d) else none
  | _ => none

/-- a file, word by word: the section that is open with what was read of it, the words of the statement that was begun -/
def ehFileIn (pt : EhSecKind → String → Option EhPT) (pr : String → Option EhPT) :
    Option (EhSecKind × Int × List EhStmt) → List EhTok → List EhWord → Option (List EhPart)
  | none, [], [] => some []
  | none, [], .head k :: .tok (.num d) :: .tok .semi :: r => ehFileIn pt pr (some (k, d, [])) [] r
  | some (k, d, ss), [], .fin k' :: r => if k = k' then (ehFileIn pt pr none [] r).map (.sec k d ss :: ·) else none
  | none, acc, .tok .semi :: r =>
      (ehReadOne pr (acc ++ [.semi])).bind fun o => (ehFileIn pt pr none [] r).map (.one o :: ·)
  | some (k, d, ss), acc, .tok .semi :: r =>
      (ehReadStmt pt k (acc ++ [.semi])).bind fun s => ehFileIn pt pr (some (k, d, ss ++ [s])) [] r
  | cur, acc, .tok t :: r => ehFileIn pt pr cur (acc ++ [t]) r
  | _, _, _ => none

/-- a file -/
def ehReadFile (pt : EhSecKind → String → Option EhPT) (pr : String → Option EhPT) (ws : List EhWord) : Option (List EhPart) :=
  ehFileIn pt pr none [] ws

end TR
