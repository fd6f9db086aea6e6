import Verif.Echo.Spec
import Verif.Echo.Grid

/-!
# What tracks, rows, a GCell grid and a die area say — from def.y
-/

namespace TR

/-- `track_type` — def.y:1334-1337 -/
def ehReadXY : EhTok → Option Bool
  | .kw .x => some true
  | .kw .y => some false
  | _ => none

/-- names up to `;`, at least one — def.y:1362-1374 -/
def ehLayerList : List EhTok → Option (List String)
  | [.word s, .semi] => some [s]
  | .word s :: r => (ehLayerList r).map (s :: ·)
  | _ => none

/-- `track_opts` and `;` — def.y:1340-1374 -/
def ehTrackOpts (t : EhTrack) : List EhTok → Option EhTrack
  | [.semi] => some t
  | .kw .layer :: r => (ehLayerList r).map fun ls => { t with layers := ls }
  | [.kw .mask, .num m, .semi] => some { t with mask := m.toNat }
  | [.kw .mask, .num m, .kw .samemask, .semi] => some { t with mask := m.toNat, same := true }
  | .kw .mask :: .num m :: .kw .layer :: r => (ehLayerList r).map fun ls => { t with mask := m.toNat, layers := ls }
  | .kw .mask :: .num m :: .kw .samemask :: .kw .layer :: r =>
      (ehLayerList r).map fun ls => { t with mask := m.toNat, same := true, layers := ls }
  | _ => none

/-- `tracks_rule` — def.y:1293-1332 -/
def ehReadTrack : List EhTok → Option EhTrack
  | .kw .tracks :: d :: .num x :: .kw .do_ :: .num n :: .kw .step :: .num s :: r =>
      (ehReadXY d).bind fun isX => ehTrackOpts { isX := isX, x := x, num := n, step := s, layers := [] } r
  | _ => none

/-- the options of a row, from `;` — def.y:1249-1292 -/
def ehRowOpts (ptype : String → Option EhPT) (r : EhRow) (os : List (List EhTok)) : Option EhRow :=
  os.foldlM (fun r o => match o with
    | .kw .property :: ps => (ehPairs ps).bind fun ps =>
        (ps.mapM fun p => (ptype p.1).map fun k => (p.1, p.2, k)).map fun qs => { r with props := r.props ++ qs }
    | _ => none) r

/-- `row_rule` — def.y:1175-1248 -/
def ehReadRow (ptype : String → Option EhPT) (ts : List EhTok) : Option EhRow :=
  (ehSplit ts).bind fun (h, os) =>
  match h with
  | [.kw .row, .word n, .word s, .num x, .num y, o] =>
      (ehReadOri o).bind fun d => ehRowOpts ptype { name := n, site := s, x := x, y := y, orient := d } os
  | [.kw .row, .word n, .word s, .num x, .num y, o, .kw .do_, .num nx, .kw .by_, .num ny] =>
      (ehReadOri o).bind fun d =>
        ehRowOpts ptype { name := n, site := s, x := x, y := y, orient := d, do_ := some (nx, ny, none) } os
  | [.kw .row, .word n, .word s, .num x, .num y, o, .kw .do_, .num nx, .kw .by_, .num ny, .kw .step, .num sx, .num sy] =>
      (ehReadOri o).bind fun d =>
        ehRowOpts ptype { name := n, site := s, x := x, y := y, orient := d, do_ := some (nx, ny, some (sx, sy)) } os
  | _ => none

/-- `gcellgrid` — def.y:1376-1400 -/
def ehReadGcell : List EhTok → Option EhGcell
  | [.kw .gcellgrid, d, .num x, .kw .do_, .num n, .kw .step, .num s, .semi] =>
      (ehReadXY d).map fun isX => ⟨isX, x, n, s⟩
  | _ => none

/-- points up to `;` -/
def ehPts : List EhTok → Option (List (Int × Int))
  | [.semi] => some []
  | .lp :: .num x :: .num y :: .rp :: r => (ehPts r).map ((x, y) :: ·)
  | _ => none

/-- `die_area`, at least two points — def.y:557-569 -/
def ehReadDie : List EhTok → Option (List (Int × Int))
  | .kw .diearea :: r => (ehPts r).bind fun ps => if 2 ≤ ps.length then some ps else none
  | _ => none

/-- where the tracks of a statement lie -/
def EhTrack.at (t : EhTrack) (c : Int) : Prop := ∃ i : Int, 0 ≤ i ∧ i < t.num ∧ c = t.x + i * t.step

/-- the points of a die: a box between two corners, or a polygon whose corners are given; `inBox` is the smallest box
around the points -/
def ehAround (ps : List (Int × Int)) (p : Int × Int) : Prop :=
  (∃ a ∈ ps, a.1 ≤ p.1) ∧ (∃ a ∈ ps, p.1 ≤ a.1) ∧ (∃ a ∈ ps, a.2 ≤ p.2) ∧ (∃ a ∈ ps, p.2 ≤ a.2)

end TR
