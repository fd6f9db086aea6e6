import Verif.Echo.SNetSpec
import Verif.Echo.Pin

/-!
# What a pin says — from def.y:616-1170
-/

namespace TR

/-- `MASK` — def.y:992-1000, 1015-1028 -/
def ehMaskIn : List EhTok → Int × List EhTok
  | .kw .mask :: .num m :: r => (m, r)
  | ts => (0, ts)

/-- `SPACING` or `DESIGNRULEWIDTH` — def.y:1029-1124 -/
def ehRuleIn : List EhTok → EhRule × List EhTok
  | .kw .spacing :: .num v :: r => (.spacing v, r)
  | .kw .designrulewidth :: .num v :: r => (.width v, r)
  | ts => (.none, ts)

/-- the last port is changed -/
def ehLast (f : EhPort → EhPort) : List EhPort → List EhPort
  | [] => []
  | [p] => [f p]
  | p :: ps => p :: ehLast f ps

/-- a pin under construction; `open_` says that shapes and the next placement belong to the last port (`hasPort`):
`PORT` sets it and a placement ends it — def.y:716-735, 818-828 -/
structure EhPinSt where
  pin : EhPin
  open_ : Bool := false
deriving DecidableEq, Repr

/-- a rectangle for the pin or for its last port — def.y:737-754 -/
def EhPinSt.addBox (s : EhPinSt) (b : EhBox) : EhPinSt :=
  if s.open_ then { s with pin := { s.pin with ports := ehLast (fun q => { q with boxes := q.boxes ++ [b] }) s.pin.ports } }
  else { s with pin := { s.pin with boxes := s.pin.boxes ++ [b] } }

/-- a polygon — def.y:756-791 -/
def EhPinSt.addPoly (s : EhPinSt) (b : EhPoly) : EhPinSt :=
  if s.open_ then { s with pin := { s.pin with ports := ehLast (fun q => { q with polys := q.polys ++ [b] }) s.pin.ports } }
  else { s with pin := { s.pin with polys := s.pin.polys ++ [b] } }

/-- a via — def.y:792-816 -/
def EhPinSt.addVia (s : EhPinSt) (b : String × Int × Int) : EhPinSt :=
  if s.open_ then { s with pin := { s.pin with ports := ehLast (fun q => { q with vias := q.vias ++ [b] }) s.pin.ports } }
  else { s with pin := { s.pin with vias := s.pin.vias ++ [b] } }

/-- a placement — def.y:818-828 -/
def EhPinSt.setPlace (s : EhPinSt) (l : EhPlace × Int × Int × Int) : EhPinSt :=
  if s.open_ then
    { s with pin := { s.pin with ports := ehLast (fun q => { q with place := some l }) s.pin.ports }, open_ := false }
  else { s with pin := { s.pin with place := some l } }

/-- two points -/
def ehBoxIn : List EhTok → Option (Int × Int × Int × Int)
  | [.lp, .num a, .num b, .rp, .lp, .num c, .num d, .rp] => some (a, b, c, d)
  | _ => none

/-- an option of a pin — def.y:630-990 -/
def ehPinOpt (s : EhPinSt) : List EhTok → Option EhPinSt
  | [.kw .special] => some { s with pin := { s.pin with special := true } }
  | [.kw .direction, .word d] => some { s with pin := { s.pin with dir := some d } }
  | [.kw .netexpr, .quoted d] => some { s with pin := { s.pin with netExpr := some d } }
  | [.kw .supply, .word d] => some { s with pin := { s.pin with supply := some d } }
  | [.kw .ground, .word d] => some { s with pin := { s.pin with ground := some d } }
  | [.kw .use, .word d] => some { s with pin := { s.pin with use := some d } }
  | [.kw .port] => some { pin := { s.pin with ports := s.pin.ports ++ [{}] }, open_ := true }
  | .kw .layer :: .word l :: r =>
      (ehBoxIn (ehRuleIn (ehMaskIn r).2).2).map fun b =>
        s.addBox { layer := l, mask := (ehMaskIn r).1, rule := (ehRuleIn (ehMaskIn r).2).1, box := b }
  | .kw .polygon :: .word l :: r =>
      (ehPtList (ehRuleIn (ehMaskIn r).2).2).bind fun ps =>
        if 3 ≤ ps.length then
          some (s.addPoly { layer := l, mask := (ehMaskIn r).1, rule := (ehRuleIn (ehMaskIn r).2).1, pts := ps })
        else none
  | [.kw .via, .word v, .lp, .num x, .num y, .rp] => some (s.addVia (v, x, y))
  | [.kw .fixed, .lp, .num x, .num y, .rp, o] => (ehReadOri o).map fun d => s.setPlace (.fixed, x, y, d)
  | [.kw .cover, .lp, .num x, .num y, .rp, o] => (ehReadOri o).map fun d => s.setPlace (.cover, x, y, d)
  | [.kw .placed, .lp, .num x, .num y, .rp, o] => (ehReadOri o).map fun d => s.setPlace (.placed, x, y, d)
  | [.kw .antenna, .num a] => some { s with pin := { s.pin with antennas := s.pin.antennas ++ [(a, none)] } }
  | [.kw .antenna, .num a, .kw .layer, .word l] =>
      some { s with pin := { s.pin with antennas := s.pin.antennas ++ [(a, some l)] } }
  | _ => none

/-- a pin — def.y:616-628 -/
def ehReadPin (ts : List EhTok) : Option EhPin :=
  (ehSplit ts).bind fun (h, os) =>
  match h, os with
  | [.minus, .word name], [.kw .net, .word net] :: os =>
      (os.foldlM ehPinOpt { pin := { name := name, net := net } }).map (·.pin)
  | _, _ => none

end TR
