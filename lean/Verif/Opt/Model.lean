import Verif.Setup.TextModel
/-!
# The command line and the parameter file

Models `main` and `readParams` (src/main.cpp:40-145), the settings they write (src/global.cpp) and the
settings that `FlexRoute::init` changes for one process (src/FlexRoute.cpp:44-51).

Simplifications: the six settings `ONGRIDONLY_…` are written by `readParams` and read nowhere, so they are
counted but not kept. `OR_K` is kept as its text. Numbers are not limited to 32 bits.
-/
namespace TR

/-- the settings of a run — src/global.cpp. -/
structure Opts where
  lef : Txt
  def_ : Txt
  /-- `REF_OUT_FILE`, the DEF file that the output is a copy of -/
  ref : Txt
  guide : Txt
  outTA : Txt
  out : Txt
  outGuide : Txt
  outMaze : Txt
  drc : Txt
  node : Txt
  threads : Int
  verbose : Int
  pinLo : Int
  pinHi : Int
  endIter : Int
  seed : Int
  k : Txt
  nonPref : Bool
  botLayer : Int
  topLayer : Int
  viaGen : Bool
  deriving DecidableEq

/-- the digits at the front of a text and their value so far -/
def leadNat : Txt → Nat → Nat
  | [], n => n
  | c :: cs, n => if c.isDigit then leadNat cs (10 * n + (c.toNat - '0'.toNat)) else n

/-- the digits at the front of a text, of which there must be one -/
def leadDigits : Txt → Option Nat
  | [] => none
  | c :: cs => if c.isDigit then some (leadNat (c :: cs) 0) else none

/-- the number at the front of a text as `strtol` reads it: white space, a sign, at least one digit -/
def leadInt (t : Txt) : Option Int :=
  match t.dropWhile isSp with
  | '-' :: u => (leadDigits u).map fun n => - Int.ofNat n
  | '+' :: u => (leadDigits u).map Int.ofNat
  | u => (leadDigits u).map Int.ofNat

/-- `atoi`: zero if there is no number -/
def atoi (t : Txt) : Int := (leadInt t).getD 0

/-- `line.substr(0, pos)` and `line.substr(pos + 1)` with `pos` the place of the first colon. Without a
colon `pos` is -1 and both are the whole line — src/main.cpp:49-52. -/
def splitLine (l : Txt) : Txt × Txt :=
  if ':' ∈ l then (l.takeWhile (· ≠ ':'), (l.dropWhile (· ≠ ':')).drop 1) else (l, l)

/-- the parameters; the six that are read nowhere are one -/
inductive Par where
  | lef | def_ | guide | outTA | out | outGuide | outMaze | drc | threads | verbose | node | onGrid | pinLo | pinHi
  | endIter | seed | k
  deriving DecidableEq

/-- the names that a line is compared with, in this order — src/main.cpp:54-75. -/
def parTable : List (Txt × Par) :=
  [("lef".toList, .lef), ("def".toList, .def_), ("guide".toList, .guide), ("outputTA".toList, .outTA),
   ("output".toList, .out), ("outputguide".toList, .outGuide), ("outputMaze".toList, .outMaze),
   ("outputDRC".toList, .drc), ("threads".toList, .threads), ("verbose".toList, .verbose),
   ("dbProcessNode".toList, .node), ("drouteOnGridOnlyPrefWireBottomLayerNum".toList, .onGrid),
   ("drouteOnGridOnlyPrefWireTopLayerNum".toList, .onGrid), ("drouteOnGridOnlyNonPrefWireBottomLayerNum".toList, .onGrid),
   ("drouteOnGridOnlyNonPrefWireTopLayerNum".toList, .onGrid), ("drouteOnGridOnlyViaBottomLayerNum".toList, .onGrid),
   ("drouteOnGridOnlyViaTopLayerNum".toList, .onGrid), ("drouteViaInPinBottomLayerNum".toList, .pinLo),
   ("drouteViaInPinTopLayerNum".toList, .pinHi), ("drouteEndIterNum".toList, .endIter), ("OR_SEED".toList, .seed),
   ("OR_K".toList, .k)]

/-- the assignment for a parameter — src/main.cpp:54-75. -/
def setPar (o : Opts) (v : Txt) : Par → Opts
  | .lef => { o with lef := v }
  | .def_ => { o with def_ := v, ref := v }
  | .guide => { o with guide := v }
  | .outTA => { o with outTA := v }
  | .out => { o with out := v }
  | .outGuide => { o with outGuide := v }
  | .outMaze => { o with outMaze := v }
  | .drc => { o with drc := v }
  | .threads => { o with threads := atoi v }
  | .verbose => { o with verbose := atoi v }
  | .node => { o with node := v }
  | .onGrid => o
  | .pinLo => { o with pinLo := atoi v }
  | .pinHi => { o with pinHi := atoi v }
  | .endIter => { o with endIter := atoi v }
  | .seed => { o with seed := atoi v }
  | .k => { o with k := v }

/-- the parameter with a name -/
def parOf (f : Txt) : Option Par := (parTable.find? fun e => e.1 == f).map (·.2)

/-- the effect of one line of the parameter file on the settings and on `readParamCnt`, which the verbosity
does not count for — src/main.cpp:48-75. -/
def parLine (s : Opts × Nat) (l : Txt) : Opts × Nat :=
  if l.head? = some '#' then s else
  match parOf (splitLine l).1 with
  | none => s
  | some p => (setPar s.1 (splitLine l).2 p, if p = .verbose then s.2 else s.2 + 1)

/-- `readParams`: the settings, and whether it returns 0. `none` is a file that cannot be opened for reading
and writing, as `fstream` does by default — src/main.cpp:40-84. -/
def readParams (d : Opts) : Option Txt → Opts × Bool
  | none => (d, false)
  | some file =>
    let r := (linesOf file []).foldl parLine (d, 0)
    (r.1, !(decide (r.2 < 5)))

/-- how `main` goes on after the command line -/
inductive Start where
  /-- the router is run with these settings -/
  | run (o : Opts)
  /-- `return 2` -/
  | exit2
  /-- the null pointer at the end of `argv` is read as a text -/
  | crash
  deriving DecidableEq

/-- the effect of one option with its value, or nothing for an illegal option — src/main.cpp:104-134. -/
def cmdOpt (o : Opts) (name v : Txt) : Option Opts :=
  if name = "-lef".toList then some { o with lef := v }
  else if name = "-def".toList then some { o with def_ := v, ref := v }
  else if name = "-guide".toList then some { o with guide := v }
  else if name = "-threads".toList then some { o with threads := (leadInt v).getD o.threads }
  else if name = "-output".toList then some { o with out := v }
  else if name = "-verbose".toList then some { o with verbose := atoi v }
  else none

/-- the loop over the options — src/main.cpp:101-135. -/
def cmdLoop : List Txt → Opts → Start
  | [], o => .run o
  | [name], o => if (cmdOpt o name []).isSome then .crash else .exit2
  | name :: v :: rest, o =>
    match cmdOpt o name v with
    | some o' => cmdLoop rest o'
    | none => .exit2

/-- `main` up to the start of the router; `args` leaves out the name of the program and `files` gives the
text of the files that can be opened — src/main.cpp:86-138. -/
def mainStart (files : Txt → Option Txt) (d : Opts) : List Txt → Start
  | [] => .exit2
  | [a] => if (readParams d (files a)).2 then .run (readParams d (files a)).1 else .exit2
  | args => cmdLoop args d

/-- the name of the process with settings of its own -/
def gf14 : Txt := "GF14_13M_3Mx_2Cx_4Kx_2Hx_2Gx_LB".toList

/-- the settings in force while the design is read and routed — src/FlexRoute.cpp:44-51. -/
def nodeOpts (o : Opts) : Opts :=
  if o.node = gf14 then
    { o with pinLo := 2, pinHi := 2, nonPref := false, botLayer := 4, topLayer := 18, viaGen := false }
  else o

end TR
