import Verif.Echo.File

/-!
# The complete file: the first statements, property definitions between the other parts, and the end

Models `writeDef` (src/io/defw.cpp:3010-3409) as a whole, with `propstart`, `propend` (1766-1772, 1821-1829) and `done`
(95-100). A file is the first two statements, then blocks of parts each followed by a section of property definitions,
then the last parts.
-/

namespace TR

/-- words of a complete file -/
inductive EhDWord
  | w (x : EhWord)
  | props | endprops | enddesign
deriving DecidableEq, Repr

/-- a complete reference file: the first statements, parts followed by property definitions, the parts after the last
definitions -/
structure EhDoc where
  head : EhHead := {}
  blocks : List (List EhPart × List EhPd) := []
  last : List EhPart := []
deriving DecidableEq, Repr

/-- `numObjs` after calls — src/io/defw.cpp:1642-1673 and the ends of the callbacks (e.g. 260-262) -/
def ehLeft (n : Int) : List EhCall → Int
  | [] => n
  | .start _ num :: r => ehLeft num r
  | .stmt _ :: r => ehLeft (n - 1) r
  | _ :: r => ehLeft n r

/-- a section of property definitions — src/io/defw.cpp:1766-1829 -/
def ehDefs (ds : List EhPd) : List EhDWord :=
  .props :: (ds.flatMap ehPd).map (fun t => .w (.tok t)) ++ [.endprops]

/-- blocks and the last parts; `n` is `numObjs` -/
def ehBlocks (routes : String → List (List PathTok)) (last : List EhPart) : Int → List (List EhPart × List EhPd) → List EhDWord
  | n, [] => (ehFile routes n last).map .w ++ [.enddesign]
  | n, (ps, ds) :: r =>
      (ehFile routes n ps).map .w ++ (ehDefs ds ++ ehBlocks routes last (ehLeft n (ps.flatMap EhPart.calls)) r)

/-- the written file -/
def ehDoc (routes : String → List (List PathTok)) (n : Int) (d : EhDoc) : List EhDWord :=
  (ehHead d.head).map (fun t => .w (.tok t)) ++ ehBlocks routes d.last n d.blocks

end TR
