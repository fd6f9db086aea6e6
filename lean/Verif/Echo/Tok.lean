import Verif.Def.Model

/-!
# Writing the statements of the reference file back: the words of a DEF file

`io::Writer::writeDef` (src/io/defw.cpp:3010-3409) reads the reference DEF with the DEF library and every
callback prints the object it is given. White space between words is left out of the model; a word that the
grammar reads as a name is a `word`, whatever its letters are.
-/

namespace TR

/-- reserved words of the statements that are modelled -/
inductive EhKw
  | source | fixed | cover | placed | unplaced | generate | weight | eeqmaster | region | maskshift | halo | soft
  | routehalo | foreign | property | real | integer | string | quotestring | number
  | mustjoin | synthesized | routed | new | nondefaultrule | shieldnet | estcap | fixedbump | frequency | pattern
  | original | use | xtalk | style | vpin
  | net | direction | netexpr | supply | ground | special | layer | mask | spacing | designrulewidth | polygon | via | port
  | antenna | rect | shape | shield | width | voltage | range | taper | do_ | by_ | step | virtual
  | tracks | row | gcellgrid | samemask | diearea | x | y
  | viarule | cutsize | layers | cutspacing | enclosure | rowcol | origin | offset
  | component | slots | fills | pushdown | exceptpgnet | placement | partial_
  | hardspacing | diagwidth | wireext | mincuts | type | fence | guide | opc
  | design | specialnet | group | componentpin | namemapstring | maxx | maxy | maxhalf | version | casesens | on | off
  | technology | array | floorplan | dividerchar | busbitchars | units | distance | microns
deriving DecidableEq, Repr

/-- the eight orientations as they are written -/
inductive EhOri
  | n | w | s | e | fn | fw | fs | fe
deriving DecidableEq, Repr

/-- a word of the file; `path` is a piece of the route of a net (see `PathTok`), `digits` a string of digits and
`quoted` a text in quotes -/
inductive EhTok
  | plus | minus | semi | lp | rp
  | kw (k : EhKw)
  | ori (o : EhOri)
  | word (s : String)
  | quoted (s : String)
  | num (n : Int)
  | digits (d : List Nat)
  | path (p : PathTok)
deriving DecidableEq, Repr

/-- `orientStr` — src/io/defw.cpp:116-128. Any other number makes the word `BOGUS`. -/
def ehOri (o : Int) : EhTok :=
  if o = 0 then .ori .n else if o = 1 then .ori .w else if o = 2 then .ori .s else if o = 3 then .ori .e
  else if o = 4 then .ori .fn else if o = 5 then .ori .fw else if o = 6 then .ori .fs else if o = 7 then .ori .fe
  else .word "BOGUS"

/-- `( x y )` -/
def ehPt (x y : Int) : List EhTok := [.lp, .num x, .num y, .rp]

/-- the value of a property -/
inductive EhVal
  | num (n : Int)
  | str (s : String)
deriving DecidableEq, Repr

def EhVal.tok : EhVal → EhTok
  | .num n => .num n
  | .str s => .word s

/-- the type of a property, as its definition gives it: `'R'`, `'I'`, `'S'`, `'Q'`, `'N'` -/
inductive EhPT
  | r | i | s | q | n
deriving DecidableEq, Repr

/-- the word for a type, e.g. src/io/defw.cpp:244-255 -/
def EhPT.kw : EhPT → EhKw
  | .r => .real | .i => .integer | .s => .string | .q => .quotestring | .n => .number

end TR
