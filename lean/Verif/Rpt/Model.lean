import Verif.Geom.Model
/-!
# Summary and report at the end of detailed routing

Models `FlexDR::end` (src/dr/FlexDR.cpp:1702-1797) and `FlexDR::reportDRC` (1799-1910).

Simplifications:
* the summary is the list of the numbers printed, with what they stand for; column widths and percentages are left out.
* an entry of the report is the list of its fields; the words between them are left out.
* coordinates are divided as rational numbers, not as `double`, and rounded to the six digits `ostream` prints by default, halves away from
  zero. (The quotient as a `double` has about sixteen digits; the difference can only show when the seventh digit is a five followed by zeros.)
  A printed number is the pair of its digits and its power of ten, whether it is printed with a point or an exponent.
-/
namespace TR

/-! ### summary -/

/-- a net: its wires (layer, ends) and vias (cut layer, several cuts) — src/dr/FlexDR.cpp:1710-1731. -/
structure SumNet where
  wires : List (Nat × Point × Point)
  vias : List (Nat × Bool)

/-- `wlen`, `sCut`, `mCut` and their totals, 64-bit counters — src/dr/FlexDR.cpp:1703-1708. -/
structure Sums where
  wlen : Nat → Nat
  sCut : Nat → Nat
  mCut : Nat → Nat
  totW : Nat
  totS : Nat
  totM : Nat

def Sums.zero : Sums := ⟨fun _ => 0, fun _ => 0, fun _ => 0, 0, 0, 0⟩

/-- `unsigned long long` plus a converted `int` -/
def addU64 (a : Nat) (x : Int) : Nat := ((a : Int) + x).emod (2 ^ 64) |>.toNat

/-- `psLen` — src/dr/FlexDR.cpp:1716. -/
def segLen (b e : Point) : Int := e.x - b.x + e.y - b.y

/-- src/dr/FlexDR.cpp:1711-1720 -/
def Sums.wire (s : Sums) (w : Nat × Point × Point) : Sums :=
  { s with wlen := fun l => if l = w.1 then addU64 (s.wlen l) (segLen w.2.1 w.2.2) else s.wlen l, totW := addU64 s.totW (segLen w.2.1 w.2.2) }

/-- src/dr/FlexDR.cpp:1721-1730 -/
def Sums.via (s : Sums) (v : Nat × Bool) : Sums :=
  if v.2 then { s with mCut := fun l => if l = v.1 then addU64 (s.mCut l) 1 else s.mCut l, totM := addU64 s.totM 1 }
  else { s with sCut := fun l => if l = v.1 then addU64 (s.sCut l) 1 else s.sCut l, totS := addU64 s.totS 1 }

/-- src/dr/FlexDR.cpp:1710-1731 -/
def sumNets (nets : List SumNet) : Sums :=
  nets.foldl (fun s n => n.vias.foldl Sums.via (n.wires.foldl Sums.wire s)) .zero

inductive LayerKind where
  | routing | cut | other
deriving DecidableEq, Repr

/-- the layers: their types and names, the numbers of the bottom and top layer, units per micron -/
structure RptTech where
  kind : Nat → LayerKind
  name : Nat → String
  bottom : Nat
  top : Nat
  dbu : Nat

/-- the lines of the summary: total wire length in microns, wire length of a layer, number of vias, of those with several cuts and with one,
the line of a cut layer (with the layer below it) -/
inductive SumLine where
  | total (um : Nat)
  | layer (name : String) (um : Nat)
  | vias (n : Nat)
  | multi (n : Nat)
  | single (n : Nat)
  | up (name : String) (single : Nat) (multiAndTotal : Option (Nat × Nat))
  | upTotal (single : Nat) (multiAndTotal : Option (Nat × Nat))
deriving DecidableEq, Repr

/-- numbers from `bottom` to `top` -/
def RptTech.layers (T : RptTech) : List Nat := (List.range (T.top + 1 - T.bottom)).map (T.bottom + ·)

/-- what `end` prints; `none`: division by zero — src/dr/FlexDR.cpp:1732-1796. -/
def summary (T : RptTech) (nets : List SumNet) : Option (List SumLine) :=
  let s := sumNets nets
  if T.dbu = 0 then none
  else
    let both (a b : Nat) := if s.totM ≠ 0 then some (b, addU64 a b) else none
    some (.total (s.totW / T.dbu) ::
      (T.layers.filter fun l => decide (T.kind l = .routing)).map (fun l => .layer (T.name l) (s.wlen l / T.dbu)) ++
      [.vias (addU64 s.totS s.totM)] ++
      (if s.totM > 0 then [.multi s.totM, .single s.totS] else []) ++
      (T.layers.filter fun l => decide (T.kind l = .cut)).map (fun l => .up (T.name (l - 1)) (s.sCut l) (both (s.sCut l) (s.mCut l))) ++
      [.upTotal s.totS (both s.totS s.totM)])

/-! ### report of violations -/

/-- the types of rules with a word of their own in the report, others -/
inductive RuleKind where
  | short | minWidth | spacing | eol | spacingTable | cutSpacing | minStep | nsMetal | sameNet | offGrid | minEnclosed | area
  | cornerSpacing | lef58Cut | rectOnly | rightWay | lef58MinStep | other
deriving DecidableEq, Repr

/-- src/dr/FlexDR.cpp:1813-1858 -/
def ruleWord (layer : LayerKind) : Option RuleKind → String
  | none => "nullptr"
  | some .short => match layer with
    | .routing => "Short"
    | .cut => "CShort"
    | .other => ""
  | some .minWidth => "MinWid"
  | some .spacing => "MetSpc"
  | some .eol => "EOLSpc"
  | some .spacingTable => "MetSpc"
  | some .cutSpacing => "CutSpc"
  | some .minStep => "MinStp"
  | some .nsMetal => "NSMet"
  | some .sameNet => "MetSpc"
  | some .offGrid => "OffGrid"
  | some .minEnclosed => "MinHole"
  | some .area => "MinArea"
  | some .cornerSpacing => "CornerSpc"
  | some .lef58Cut => "CutSpc"
  | some .rectOnly => "RectOnly"
  | some .rightWay => "RightWayOnGridOnly"
  | some .lef58MinStep => "MinStp"
  | some .other => "unknown"

/-- a source of a violation -/
inductive RptSrc where
  | net (name : String)
  | instTerm (inst term : String)
  | term (name : String)
  | instBlockage (inst : String)
  | blockage
  | other
deriving DecidableEq, Repr

/-- src/dr/FlexDR.cpp:1864-1890; other sources only make a message -/
def srcWord : RptSrc → Option String
  | .net n => some n
  | .instTerm i t => some (i ++ "/" ++ t)
  | .term n => some ("PIN/" ++ n)
  | .instBlockage i => some (i ++ "/OBS")
  | .blockage => some "PIN/OBS"
  | .other => none

structure RptMarker where
  rule : Option RuleKind
  srcs : List (Option RptSrc)
  box : Box
  layer : Nat

/-- quotient rounded to an integer -/
def roundDiv (a b : Nat) : Nat := (2 * a + b) / (2 * b)

/-- `n / d` in units of ten to the `e`, rounded -/
def scaled (n d : Nat) (e : Int) : Nat :=
  if 0 ≤ e then roundDiv n (d * 10 ^ e.toNat) else roundDiv (n * 10 ^ (-e).toNat) d

/-- from exponent `e` on, the first with at most six digits -/
def sixFrom (n d : Nat) : Nat → Int → Nat × Int
  | 0, e => (scaled n d e, e)
  | f + 1, e => if scaled n d e < 10 ^ 6 then (scaled n d e, e) else sixFrom n d f (e + 1)

/-- `<<` of the quotient of a positive number: six digits and a power of ten -/
def sixDigits (n d : Nat) : Nat × Int :=
  if n = 0 then (0, 0) else sixFrom n d (Nat.log2 n + Nat.log2 d + 8) (-((Nat.log2 d : Int) + 7))

/-- a printed number: negative?, digits, power of ten -/
structure Printed where
  neg : Bool
  digits : Nat
  exp : Int
deriving DecidableEq, Repr

def printCoord (c : Int) (dbu : Nat) : Printed :=
  let r := sixDigits c.natAbs dbu
  ⟨decide (c < 0), r.1, r.2⟩

structure RptEntry where
  rule : String
  srcs : List String
  left : Printed
  bottom : Printed
  right : Printed
  top : Printed
  layer : String
deriving DecidableEq, Repr

/-- the layer printed: for a cut layer the one below, if there is one — src/dr/FlexDR.cpp:1898-1903. -/
def rptLayer (T : RptTech) (l : Nat) : Nat := if T.kind l = .cut ∧ (T.bottom : Int) ≤ (l : Int) - 1 then l - 1 else l

/-- the body of the loop — src/dr/FlexDR.cpp:1812-1904. -/
def rptEntry (T : RptTech) (m : RptMarker) : RptEntry :=
  ⟨ruleWord (T.kind m.layer) m.rule, (m.srcs.filterMap id).filterMap srcWord, printCoord m.box.left T.dbu, printCoord m.box.bottom T.dbu,
    printCoord m.box.right T.dbu, printCoord m.box.top T.dbu, T.name (rptLayer T m.layer)⟩

/-- `reportDRC` with a file that can be opened — src/dr/FlexDR.cpp:1799-1910. -/
def reportDRC (T : RptTech) (ms : List RptMarker) : List RptEntry := ms.map (rptEntry T)

end TR
