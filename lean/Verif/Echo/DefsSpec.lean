import Verif.Echo.Defs
import Verif.Echo.Spec

/-!
# What property definitions, groups and the first statements say
-/

namespace TR

/-- def.y:373-457 -/
def ehReadOwner : EhKw → Option EhOwner
  | .design => some .design | .net => some .net | .specialnet => some .specialnet | .region => some .region
  | .group => some .group | .component => some .component | .row => some .row | .componentpin => some .componentpin
  | .nondefaultrule => some .nondefaultrule | _ => none

/-- `opt_range opt_num_val` — def.y:490-493, 3267-3269 -/
def ehReadNums : List EhTok → Option (Option (Int × Int) × Option Int)
  | [.semi] => some (none, none)
  | [.num v, .semi] => some (none, some v)
  | [.kw .range, .num a, .num b, .semi] => some (some (a, b), none)
  | [.kw .range, .num a, .num b, .num v, .semi] => some (some (a, b), some v)
  | _ => none

/-- `property_type_and_val ;` — def.y:461-488 -/
def ehReadPdVal : List EhTok → Option EhPdVal
  | .kw .integer :: r => (ehReadNums r).map fun p => .int p.1 p.2
  | .kw .real :: r => (ehReadNums r).map fun p => .real p.1 p.2
  | [.kw .string, .semi] => some .str
  | [.kw .string, .quoted s, .semi] => some (.qstr s)
  | [.kw .namemapstring, .word s, .semi] => some (.nmap s)
  | _ => none

/-- `property_def` — def.y:373-459 -/
def ehReadPd : List EhTok → Option EhPd
  | .kw k :: .word n :: r => (ehReadOwner k).bind fun o => (ehReadPdVal r).map fun v => ⟨o, n, v⟩
  | _ => none

/-- the type that is kept for the sections — def.y:461-488 -/
def EhPdVal.type : EhPdVal → EhPT
  | .int _ _ => .i | .real _ _ => .r | .str => .s | .qstr _ => .q | .nmap _ => .s

/-- the type of a property by its definitions: the first counts — module/def/5.8-p029/def/defiPropType.cpp:77-87, 117-129 -/
def ehTypeOf (ds : List EhPd) (o : EhOwner) (n : String) : Option EhPT :=
  (ds.find? fun d => d.owner = o ∧ d.name = n).map (·.val.type)

/-- the words before the first `+` are names of members whatever they are — def.y:3374-3394 -/
def ehAsName : EhTok → String
  | .word s => s
  | .kw .region => "REGION"
  | .num n => toString n
  | _ => ""

/-- the sizes of a group — def.y:3462-3491; `old` is for versions before 5.5, else they are ignored -/
def ehSoftIn (old : Bool) (g : EhGroup) : List EhTok → Option EhGroup
  | [] => some g
  | .kw .maxx :: .num v :: r => ehSoftIn old (if old then { g with maxX := some v } else g) r
  | .kw .maxy :: .num v :: r => ehSoftIn old (if old then { g with maxY := some v } else g) r
  | .kw .maxhalf :: .num v :: r => ehSoftIn old (if old then { g with perim := some v } else g) r
  | _ => none

/-- an option of a group — def.y:3400-3460 -/
def ehGroupOpt (old : Bool) (pt : String → Option EhPT) (g : EhGroup) : List EhTok → Option EhGroup
  | .kw .soft :: r => ehSoftIn old g r
  | [.kw .region, .word s] => some { g with region := some s }
  | [.kw .region, .lp, .num a, .num b, .rp, .lp, .num c, .num d, .rp] =>
      some (if old then { g with boxes := g.boxes ++ [(a, b, c, d)] } else g)
  | .kw .property :: ps => (ehPairs ps).bind fun ps =>
      (ps.mapM fun p => (pt p.1).map fun k => (p.1, p.2, k)).map fun qs => { g with props := g.props ++ qs }
  | _ => none

/-- a group — def.y:3368-3398 -/
def ehReadGroup (old : Bool) (pt : String → Option EhPT) (ts : List EhTok) : Option EhGroup :=
  (ehSplit ts).bind fun (h, os) =>
  match h with
  | .minus :: .word n :: ms => os.foldlM (ehGroupOpt old pt) { name := n, members := ms.map ehAsName }
  | _ => none

/-- the first two statements: the version, and whether names are case sensitive; `NAMESCASESENSITIVE OFF` is an error from
version 5.6 on — def.y:216-275, defrReader.cpp:1247-1256 (the reader is called with case sensitivity 1) -/
def ehSensIn (v : Nat) (r : List EhTok) : Option Bool :=
  match r with
  | [] => some true
  | [.kw .casesens, .kw .on, .semi] => some true
  | [.kw .casesens, .kw .off, .semi] => if v < 56 then some false else none
  | _ => none

def ehReadHead : List EhTok → Option (Nat × Bool)
  | .kw .version :: .num v :: .semi :: r => if 58 < v ∨ v < 0 then none else (ehSensIn v.toNat r).map fun b => (v.toNat, b)
  | r => (ehSensIn 57 r).map fun b => (57, b)

/-- whether the names of a reference file are case sensitive — def.y:235-275 -/
def EhHead.sensitive (h : EhHead) : Bool := if h.vers < 56 then h.sens.getD true else true

end TR
