import Verif.Opt.Model
/-! # What the command line and the parameter file say -/
namespace TR

/-- the line gives the parameter a value: the text after the colon. A line without a colon that is just the
name of the parameter gives it its own name as value. -/
def SetsTo (name v line : Txt) : Prop := line = name ++ ':' :: v ∨ (line = name ∧ v = name)

/-- `v` is the value of the last pair named `name` -/
def LastPair (name v : Txt) (ps : List (Txt × Txt)) : Prop :=
  ∃ a b, ps = a ++ (name, v) :: b ∧ ∀ p ∈ b, p.1 ≠ name

/-- no pair is named `name` -/
def NoPair (name : Txt) (ps : List (Txt × Txt)) : Prop := ∀ p ∈ ps, p.1 ≠ name

/-- `v` is the value in the last line for `name` -/
def LastLine (name v : Txt) (lines : List Txt) : Prop :=
  ∃ a l b, lines = a ++ l :: b ∧ SetsTo name v l ∧ ∀ x ∈ b, ∀ w, ¬ SetsTo name w x

/-- no line gives `name` a value -/
def NoLine (name : Txt) (lines : List Txt) : Prop := ∀ l ∈ lines, ∀ v, ¬ SetsTo name v l

/-- options of the command line whose value is a text, with the settings they stand for -/
def cmdTexts : List (Txt × (Opts → Txt)) :=
  [("-lef".toList, Opts.lef), ("-def".toList, Opts.def_), ("-def".toList, Opts.ref), ("-guide".toList, Opts.guide),
   ("-output".toList, Opts.out)]

/-- the options of the command line -/
def cmdNames : List Txt :=
  ["-lef".toList, "-def".toList, "-guide".toList, "-threads".toList, "-output".toList, "-verbose".toList]

/-- parameters whose value is a text -/
def parTexts : List (Txt × (Opts → Txt)) :=
  [("lef".toList, Opts.lef), ("def".toList, Opts.def_), ("def".toList, Opts.ref), ("guide".toList, Opts.guide),
   ("outputTA".toList, Opts.outTA), ("output".toList, Opts.out), ("outputguide".toList, Opts.outGuide),
   ("outputMaze".toList, Opts.outMaze), ("outputDRC".toList, Opts.drc), ("dbProcessNode".toList, Opts.node),
   ("OR_K".toList, Opts.k)]

/-- parameters whose value is a whole number -/
def parInts : List (Txt × (Opts → Int)) :=
  [("threads".toList, Opts.threads), ("verbose".toList, Opts.verbose),
   ("drouteViaInPinBottomLayerNum".toList, Opts.pinLo), ("drouteViaInPinTopLayerNum".toList, Opts.pinHi),
   ("drouteEndIterNum".toList, Opts.endIter), ("OR_SEED".toList, Opts.seed)]

/-- the parameters that count towards the five a file must have: all but the verbosity -/
def parCounted : List Txt :=
  ["lef".toList, "def".toList, "guide".toList, "outputTA".toList, "output".toList, "outputguide".toList,
   "outputMaze".toList, "outputDRC".toList, "threads".toList, "dbProcessNode".toList,
   "drouteOnGridOnlyPrefWireBottomLayerNum".toList, "drouteOnGridOnlyPrefWireTopLayerNum".toList,
   "drouteOnGridOnlyNonPrefWireBottomLayerNum".toList, "drouteOnGridOnlyNonPrefWireTopLayerNum".toList,
   "drouteOnGridOnlyViaBottomLayerNum".toList, "drouteOnGridOnlyViaTopLayerNum".toList,
   "drouteViaInPinBottomLayerNum".toList, "drouteViaInPinTopLayerNum".toList, "drouteEndIterNum".toList,
   "OR_SEED".toList, "OR_K".toList]

/-- a number as a user writes it, with nothing behind it or something that is no digit -/
def NumText (t : Txt) (n : Nat) : Prop :=
  ∃ ds rest : Txt, t = ds ++ rest ∧ ds ≠ [] ∧ (∀ c ∈ ds, c.isDigit) ∧ (∀ c, rest.head? = some c → ¬ c.isDigit) ∧
    n = ds.foldl (fun a c => 10 * a + (c.toNat - 48)) 0

/-- at least `n` of the lines give a value to one of the parameters `names` -/
def AtLeast (n : Nat) (names : List Txt) (lines : List Txt) : Prop :=
  ∃ sub : List Txt, List.Sublist sub lines ∧ sub.length = n ∧ ∀ l ∈ sub, ∃ name ∈ names, ∃ v, SetsTo name v l

end TR
