import Verif.Setup.GcModel
/-!
# The guide file: text, words, numbers

Models `io::Parser::readGuide` (src/io/io.cpp:4907-5003) and `io::Parser::writeGuideFile`
(src/io/io_parser_helper.cpp:928-962) on the characters of the file.

Simplifications: file open errors and messages are left out; the nets and layers of the design are
given by the functions that look up a name. The map from nets to guides is the list of pairs in the order
of the file.
-/
namespace TR

abbrev Txt := List Char

/-- white space of the C locale -/
def isSp (c : Char) : Bool := c == ' ' || c == '\t' || c == '\n' || c == '\x0b' || c == '\x0c' || c == '\r'

/-- the lines that `while (fin.good()) getline(fin, line)` yields: every stretch between newlines and the
one after the last newline, even if it is empty — src/io/io.cpp:4926-4927. -/
def linesOf : Txt → Txt → List Txt
  | [], cur => [cur]
  | c :: cs, cur => if c = '\n' then cur :: linesOf cs [] else linesOf cs (cur ++ [c])

/-- `while (!ss.eof()) { ss >> word; push_back(word) }` — src/io/io.cpp:4934-4941. `cur` is the word being
read, `prev` the value of `word`. A failed extraction leaves `word` as it was, and it is stored again. -/
def wordsGo : Txt → Option Txt → Txt → List Txt
  | [], none, prev => [prev]
  | [], some w, _ => [w]
  | c :: cs, none, prev => if isSp c then wordsGo cs none prev else wordsGo cs (some [c]) prev
  | c :: cs, some w, prev => if isSp c then w :: wordsGo cs none w else wordsGo cs (some (w ++ [c])) prev

def wordsOf (line : Txt) : List Txt := wordsGo line none []

def digitVal (c : Char) : Option Nat := if '0' ≤ c ∧ c ≤ '9' then some (c.toNat - '0'.toNat) else none

/-- leading digits; `none` if there is none -/
def readNat : Txt → Option Nat → Option Nat
  | [], acc => acc
  | c :: cs, acc => match digitVal c with
    | some d => readNat cs (some (acc.getD 0 * 10 + d))
    | none => acc

/-- `stoi` on a word without white space: sign, digits, anything after them ignored; `none`: it throws
`invalid_argument` or `out_of_range`. -/
def stoi (w : Txt) : Option Int :=
  let v : Option Int := match w with
    | '-' :: cs => (readNat cs none).map (fun n : Nat => -(n : Int))
    | '+' :: cs => (readNat cs none).map (fun n : Nat => (n : Int))
    | cs => (readNat cs none).map (fun n : Nat => (n : Int))
  match v with
  | some n => if -2147483648 ≤ n ∧ n ≤ 2147483647 then some n else none
  | none => none

/-- outcome of reading: stopped with an error, exception, a guide for the null net (undefined behaviour), or
the guides with the names of their nets -/
inductive ReadOut where
  | stopped
  | thrown
  | nullNet
  | ok (gs : List (Txt × SGuide))
deriving DecidableEq, Repr

/-- what the names mean in the design -/
structure GNames where
  net : Txt → Bool
  layer : Txt → Option Int
  bottom : Int
  top : Int
  viaAccess : Int

/-- is the layer outside the allowed range — src/io/io.cpp:4961-4962. -/
def GNames.outside (d : GNames) (l : Int) : Bool := (decide (l < d.bottom) && decide (l ≠ d.viaAccess)) || decide (l > d.top)

/-- the loop over lines — src/io/io.cpp:4926-4990; `net` is the current net. -/
def readLines (d : GNames) : List Txt → Option Txt → List (Txt × SGuide) → ReadOut
  | [], _, acc => .ok acc
  | line :: rest, net, acc =>
    if line = ['('] ∨ line = [] then readLines d rest net acc
    else if line = [')'] then readLines d rest net acc
    else match wordsOf line with
      | [n] => if d.net n then readLines d rest (some n) acc else .stopped
      | [a, b, c, e, l] =>
        match d.layer l with
        | none => .stopped
        | some k =>
          if d.outside k then .stopped
          else match stoi a, stoi b, stoi c, stoi e with
            | some x1, some y1, some x2, some y2 =>
              match net with
              | none => .nullNet
              | some n => readLines d rest net (acc ++ [(n, ⟨k, Box.mk4 x1 y1 x2 y2⟩)])
            | _, _, _, _ => .thrown
      | _ => .stopped

/-- `io::Parser::readGuide` on the characters of the file — src/io/io.cpp:4907-5003. -/
def readGuide (d : GNames) (file : Txt) : ReadOut := readLines d (linesOf file []) none []

/-! ### writing -/

def digitChar (d : Nat) : Char := Char.ofNat ('0'.toNat + d)

/-- decimal digits, most significant first -/
def showGo : Nat → Nat → Txt
  | 0, _ => []
  | f + 1, n => if n < 10 then [digitChar n] else showGo f (n / 10) ++ [digitChar (n % 10)]

def showNat (n : Nat) : Txt := showGo (n + 1) n

/-- `ostream << int` -/
def showInt (i : Int) : Txt := if i < 0 then '-' :: showNat i.natAbs else showNat i.natAbs

/-- `frGuide`: points and layers -/
structure WGuide where
  bp : Point
  ep : Point
  bLayer : Int
  eLayer : Int
deriving DecidableEq, Repr

/-- four coordinates and a name in a line — src/io/io_parser_helper.cpp:947-955. -/
def rowText (x1 y1 x2 y2 : Int) (name : Txt) : Txt :=
  showInt x1 ++ [' '] ++ showInt y1 ++ [' '] ++ showInt x2 ++ [' '] ++ showInt y2 ++ [' '] ++ name ++ ['\n']

/-- one guide — src/io/io_parser_helper.cpp:934-956; undefined behaviour of `getGCellIdx` is `none`. -/
def guideText (g : GGrid) (nameOf : Int → Txt) (w : WGuide) : Option Txt :=
  match g.idx w.bp, g.idx w.ep with
  | some bi, some ei =>
    let b := g.box bi
    let e := g.box ei
    if w.bLayer ≠ w.eLayer then some (rowText b.left b.bottom b.right b.top (nameOf w.bLayer ++ ['.', '5']))
    else some (rowText b.left b.bottom e.right e.top (nameOf w.bLayer))
  | _, _ => none

/-- one net — src/io/io_parser_helper.cpp:931-958. -/
def netText (g : GGrid) (nameOf : Int → Txt) (n : Txt × List WGuide) : Option Txt :=
  (n.2.mapM (guideText g nameOf)).map (fun rows => n.1 ++ ['\n'] ++ ['(', '\n'] ++ rows.flatten ++ [')', '\n'])

/-- `io::Parser::writeGuideFile` — src/io/io_parser_helper.cpp:928-962. -/
def writeGuideFile (g : GGrid) (nameOf : Int → Txt) (nets : List (Txt × List WGuide)) : Option Txt :=
  (nets.mapM (netText g nameOf)).map List.flatten

end TR
