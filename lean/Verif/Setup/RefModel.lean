import Verif.Setup.TextModel
/-!
# The reference DEF with the generated vias

Models `io::Parser::writeRefDef` (src/io/io_parser_helper.cpp:542-647) on the characters of the file.
File open errors and messages are left out. The file is only written if a via was generated
(`REF_OUT_FILE` differs from `DEF_FILE`; src/io/io_parser_helper.cpp:551); names are not modelled.
-/
namespace TR

/-- the lines that `while (getline(fin, line))` yields: the stretches between newlines, without the one after
the last newline if it is empty — src/io/io_parser_helper.cpp:567, 582. -/
def getLines (file : Txt) : List Txt :=
  let ls := linesOf file []
  if ls.getLast? = some [] then ls.dropLast else ls

def skipSp : Txt → Txt
  | [] => []
  | c :: cs => if isSp c then skipSp cs else c :: cs

/-- the characters of the next word and the rest -/
def takeWord : Txt → Txt × Txt
  | [] => ([], [])
  | c :: cs => if isSp c then ([], c :: cs) else (c :: (takeWord cs).1, (takeWord cs).2)

/-- `iss >> b` for an `int`: blanks, sign, digits; `none` if it fails -/
def takeInt (t : Txt) : Option Int := stoi (skipSp t)

/-- `iss >> a >> b` — src/io/io_parser_helper.cpp:568-570, 584-585. -/
def headOf (line : Txt) : Option (Txt × Int) :=
  let w := takeWord (skipSp line)
  if w.1 = [] then none else (takeInt w.2).map (fun b => (w.1, b))

/-- a generated via in the file: names and boxes -/
structure GenVia where
  name : Txt
  layer1 : Txt
  cut : Txt
  layer2 : Txt
  box1 : Box
  cutBox : Box
  box2 : Box
deriving DecidableEq, Repr

def rectText (layer : Txt) (b : Box) : Txt :=
  "  + RECT ".toList ++ layer ++ " ( ".toList ++ showInt b.left ++ [' '] ++ showInt b.bottom ++ " )".toList ++
    " ( ".toList ++ showInt b.right ++ [' '] ++ showInt b.top ++ " )\n".toList

/-- one via — src/io/io_parser_helper.cpp:591-607, 617-632. -/
def viaText (v : GenVia) : Txt :=
  "- ".toList ++ v.name ++ ['\n'] ++ rectText v.layer1 v.box1 ++ rectText v.cut v.cutBox ++ rectText v.layer2 v.box2 ++ "  ;\n".toList

/-- what is written for one line — src/io/io_parser_helper.cpp:583-641. -/
def refLine (hasVia : Bool) (gens : List GenVia) (line : Txt) : Txt :=
  match headOf line with
  | some (a, b) =>
    if hasVia then
      if a = "VIAS".toList then "\nVIAS ".toList ++ showInt (b + gens.length) ++ " ;\n".toList ++ gens.flatMap viaText
      else line ++ ['\n']
    else if a = "COMPONENTS".toList then
      "\nVIAS ".toList ++ showInt gens.length ++ " ;\n".toList ++ gens.flatMap viaText ++ "END VIAS\n\n".toList ++ line ++ ['\n']
    else line ++ ['\n']
  | none => line ++ ['\n']

/-- the whole of `writeRefDef` — src/io/io_parser_helper.cpp:542-647. -/
def writeRefDef (gens : List GenVia) (file : Txt) : Txt :=
  let lines := getLines file
  let hasVia := lines.any (fun l => (headOf l).any (fun h => h.1 == "VIAS".toList))
  lines.flatMap (refLine hasVia gens)

end TR
