import Verif.Echo.Tok
import Verif.Echo.Num

/-!
# Tracks, rows, the GCell grid and the die area

Models the cases of `cls` for them (src/io/defw.cpp:1977-1980, 2272-2335).
-/

namespace TR

/-- a track statement; `mask` is 0 if there is no mask -/
structure EhTrack where
  isX : Bool
  x : Int
  num : Int
  step : Int
  mask : Nat := 0
  same : Bool := false
  layers : List String
deriving DecidableEq, Repr

def ehXY (isX : Bool) : EhTok := .kw (if isX then .x else .y)

/-- src/io/defw.cpp:2308-2331 -/
def ehTrack (t : EhTrack) : List EhTok :=
  [.kw .tracks, ehXY t.isX, .num (ehG t.x), .kw .do_, .num (ehG t.num), .kw .step, .num (ehG t.step)]
  ++ (if t.mask ≠ 0 then
        (if t.same then [.kw .mask, .num t.mask, .kw .samemask] else [.kw .mask, .num t.mask])
      else [])
  ++ [.kw .layer] ++ t.layers.map .word ++ [.semi]

/-- a row; `step` is only there with `do_` -/
structure EhRow where
  name : String
  site : String
  x : Int
  y : Int
  orient : Int
  do_ : Option (Int × Int × Option (Int × Int)) := none
  props : List (String × EhVal × EhPT) := []
deriving DecidableEq, Repr

/-- src/io/defw.cpp:2272-2306. The properties come after the first `;` and get a second one. -/
def ehRow (r : EhRow) : List EhTok :=
  [.kw .row, .word r.name, .word r.site, .num r.x, .num r.y, ehOri r.orient]
  ++ (match r.do_ with
      | some (nx, ny, some (sx, sy)) =>
          [.kw .do_, .num (ehG nx), .kw .by_, .num (ehG ny), .kw .step, .num (ehG sx), .num (ehG sy)]
      | some (nx, ny, none) => [.kw .do_, .num (ehG nx), .kw .by_, .num (ehG ny)]
      | none => [])
  ++ [.semi]
  ++ (if r.props.length > 0 then
        r.props.flatMap (fun p => [.plus, .kw .property, .word p.1, p.2.1.tok, .kw p.2.2.kw]) ++ [.semi]
      else [])

/-- a statement of the GCell grid -/
structure EhGcell where
  isX : Bool
  x : Int
  num : Int
  step : Int
deriving DecidableEq, Repr

/-- src/io/defw.cpp:2332-2337 -/
def ehGcell (g : EhGcell) : List EhTok :=
  [.kw .gcellgrid, ehXY g.isX, .num g.x, .kw .do_, .num g.num, .kw .step, .num (ehG g.step), .semi]

/-- `box->xl()`, …: the first two points of the die area, `0` for a point that is not there —
module/def/5.8-p029/def/defiSite.cpp:215-237 -/
def ehBox (ps : List (Int × Int)) : (Int × Int) × (Int × Int) :=
  (ps[0]?.getD (0, 0), ps[1]?.getD (0, 0))

/-- src/io/defw.cpp:1975-1980 -/
def ehDie (ps : List (Int × Int)) : List EhTok :=
  [.kw .diearea] ++ ehPt (ehBox ps).1.1 (ehBox ps).1.2 ++ ehPt (ehBox ps).2.1 (ehBox ps).2.2 ++ [.semi]

end TR
