import Verif.Cut58.ReadModel
/-! # The texts of LEF58 cut rules, and what they say -/
namespace TR

/-- the words with a meaning in these texts -/
def reserved58 : List String :=
  [";", "SPACING", "CENTERTOCENTER", "SAMENET", "SAMEMETAL", "SAMEVIA", "SAMEMASK", "MAXXY", "LAYER", "ADJACENTCUTS", "PARALLELOVERLAP", "PARALLELWITHIN",
   "SAMEMETALSHAREDEDGE", "AREA", "EXACTALIGNED", "TWOCUTS", "TWOCUTSSPACING", "SAMECUT", "WITHIN", "EXCEPTSAMEPGNET", "EXCEPTALLWITHIN", "ENCLOSURE", "ABOVE",
   "BELOW", "CUTCLASS", "TO", "ALL", "NOPRL", "SIDEPARALLELOVERLAP", "STACK", "ORTHOGONALSPACING", "SHORTEDGEONLY", "PRL", "CONCAVECORNER", "WIDTH", "PARALLEL",
   "EDGELENGTH", "EXTENSION", "NONEOLCONVEXCORNER", "MINLENGTH", "ABOVEWIDTH", "MASKOVERLAP", "WRONGDIRECTION", "LENGTH", "CUTS"]

/-- a number as written, as a length in database units and as an integer -/
structure Num58 where
  text : String
  dbu : Int
  int : Int

def Num58.tok (n : Num58) : LTok := ⟨n.text, some (n.dbu, n.int)⟩

/-- a word of the language -/
def kw (s : String) : LTok := ⟨s, none⟩

/-- a word that may be left out -/
def optKw (b : Bool) (s : String) : List LTok := if b then [kw s] else []

/-- a word with a number that may be left out -/
def optNum (s : String) : Option Num58 → List LTok
  | none => []
  | some n => [kw s, n.tok]

inductive Same58
  | any | net | metal | via
deriving DecidableEq

def Same58.toks : Same58 → List LTok
  | .any => [] | .net => [kw "SAMENET"] | .metal => [kw "SAMEMETAL"] | .via => [kw "SAMEVIA"]

/-- `ENCLOSURE [ABOVE | BELOW] n` -/
inductive Side58
  | both | above | below
deriving DecidableEq

def Side58.toks : Side58 → List LTok
  | .both => [] | .above => [kw "ABOVE"] | .below => [kw "BELOW"]

/-- `NOPRL | SIDEPARALLELOVERLAP` -/
inductive Par58
  | none | noPrl | side
deriving DecidableEq

def Par58.toks : Par58 → List LTok
  | .none => [] | .noPrl => [kw "NOPRL"] | .side => [kw "SIDEPARALLELOVERLAP"]

/-- `SPACING s [CENTERTOCENTER] [SAMENET | SAMEMETAL | SAMEVIA] ADJACENTCUTS n [EXACTALIGNED e] [TWOCUTS t [TWOCUTSSPACING u] [SAMECUT]] WITHIN w
[EXCEPTSAMEPGNET] [EXCEPTALLWITHIN x] [ENCLOSURE [ABOVE | BELOW] y] [CUTCLASS c [TO ALL]] [NOPRL | SIDEPARALLELOVERLAP] [SAMEMASK] ;` -/
structure Adj58 where
  spacing : Num58
  c2c : Bool := false
  same : Same58 := .any
  cuts : Num58
  exact : Option Num58 := none
  two : Option (Num58 × Option Num58 × Bool) := none
  within : Num58
  pg : Bool := false
  allWithin : Option Num58 := none
  enc : Option (Side58 × Num58) := none
  cls : Option (String × Bool) := none
  par : Par58 := .none
  mask : Bool := false

def Adj58.twoToks (a : Adj58) : List LTok :=
  match a.two with
  | none => []
  | some (n, spc, cut) => [kw "TWOCUTS", n.tok] ++ optNum "TWOCUTSSPACING" spc ++ optKw cut "SAMECUT"

def Adj58.encToks (a : Adj58) : List LTok :=
  match a.enc with
  | none => []
  | some (s, n) => [kw "ENCLOSURE"] ++ s.toks ++ [n.tok]

/-- what follows the clauses before CUTCLASS -/
def Adj58.tailToks (a : Adj58) : List LTok := a.par.toks ++ optKw a.mask "SAMEMASK"

def Adj58.clsToks (a : Adj58) : List LTok :=
  match a.cls with
  | none => []
  | some (n, all) => [kw "CUTCLASS", ⟨n, none⟩] ++ (if all then [kw "TO", kw "ALL"] else [])

/-- the words between SPACING and `;` -/
def Adj58.body (a : Adj58) : List LTok :=
  [a.spacing.tok] ++ optKw a.c2c "CENTERTOCENTER" ++ a.same.toks ++ [kw "ADJACENTCUTS", a.cuts.tok] ++ optNum "EXACTALIGNED" a.exact ++ a.twoToks ++
  [kw "WITHIN", a.within.tok] ++ optKw a.pg "EXCEPTSAMEPGNET" ++ optNum "EXCEPTALLWITHIN" a.allWithin ++ a.encToks ++ a.clsToks ++ a.tailToks

/-- the rule as it is written, without a clause after the class -/
def Adj58.rule (a : Adj58) (k : Int) : L58Rule where
  spacing := a.spacing.dbu
  c2c := a.c2c
  sameNet := a.same = .net
  sameMetal := a.same = .metal
  sameVia := a.same = .via
  adj := a.cuts.int
  exactAligned := (a.exact.map (·.int)).getD (-1)
  twoCuts := (a.two.map (·.1.int)).getD (-1)
  within := a.within.dbu
  exceptPG := a.pg
  exceptAll := (a.allWithin.map (·.dbu)).getD (-1)
  enclosure := (a.enc.map (·.2.dbu)).getD (-1)
  cls := k

/-- the rule is added: its last clause is the class, and that is known -/
def Adj58.Kept (a : Adj58) (cls : String → Int) (k : Int) : Prop := ∃ n, a.cls = some (n, false) ∧ a.par = .none ∧ a.mask = false ∧ cls n = k ∧ k ≠ -1

/-- conditions of a concave corner -/
inductive Conc58
  | always
  | width (w e l : Num58)
  | parallel (p w e : Num58)
  | edge (l e a : Num58)

def Conc58.toks : Conc58 → List LTok
  | .always => []
  | .width w e l => [kw "WIDTH", w.tok, kw "ENCLOSURE", e.tok, kw "EDGELENGTH", l.tok]
  | .parallel p w e => [kw "PARALLEL", p.tok, kw "WITHIN", w.tok, kw "ENCLOSURE", e.tok]
  | .edge l e a => [kw "EDGELENGTH", l.tok, kw "ENCLOSURE", e.tok, a.tok]

/-- what follows `CUTCLASS c` -/
inductive LCls58
  | plain
  | short (prl : Option Num58)
  | concave (c : Conc58)
  | ext (n : Num58)
  | convex (w : Num58) (min : Option Num58)
  | above (w : Num58) (enc : Option Num58)
  | mask
  | wrong

def LCls58.toks : LCls58 → List LTok
  | .plain => []
  | .short p => [kw "SHORTEDGEONLY"] ++ optNum "PRL" p
  | .concave c => [kw "CONCAVECORNER"] ++ c.toks
  | .ext n => [kw "EXTENSION", n.tok]
  | .convex w m => [kw "NONEOLCONVEXCORNER", w.tok] ++ optNum "MINLENGTH" m
  | .above w e => [kw "ABOVEWIDTH", w.tok] ++ optNum "ENCLOSURE" e
  | .mask => [kw "MASKOVERLAP"]
  | .wrong => [kw "WRONGDIRECTION"]

/-- what follows `LAYER l` -/
inductive LOpt58
  | plain
  | stack
  | orth (n : Num58)
  | cls (name : String) (o : LCls58)

def LOpt58.toks : LOpt58 → List LTok
  | .plain => []
  | .stack => [kw "STACK"]
  | .orth n => [kw "ORTHOGONALSPACING", n.tok]
  | .cls n o => [kw "CUTCLASS", ⟨n, none⟩] ++ o.toks

/-- `SPACING s [CENTERTOCENTER] [SAMENET | SAMEMETAL | SAMEVIA] LAYER l [STACK | ORTHOGONALSPACING o | CUTCLASS c […]] ;` -/
structure Lay58 where
  spacing : Num58
  c2c : Bool := false
  same : Same58 := .any
  layer : String
  opt : LOpt58 := .plain

def Lay58.body (a : Lay58) : List LTok :=
  [a.spacing.tok] ++ optKw a.c2c "CENTERTOCENTER" ++ a.same.toks ++ [kw "LAYER", ⟨a.layer, none⟩] ++ a.opt.toks

/-- the rule as it is written -/
def Lay58.rule (a : Lay58) (cls : String → Int) : L58Rule :=
  let r : L58Rule := { spacing := a.spacing.dbu, c2c := a.c2c, sameNet := a.same = .net, sameMetal := a.same = .metal, sameVia := a.same = .via }
  match a.opt with
  | .plain => r
  | .stack => { r with stack := true }
  | .orth n => { r with orth := n.dbu }
  | .cls n o =>
    let r := { r with cls := cls n }
    match o with
    | .short _ => { r with shortEdge := true }
    | .concave _ => { r with concave := true }
    | .ext n => { r with extension := n.dbu }
    | .convex w m => { r with eolWidth := w.dbu, minLength := (m.map (·.dbu)).getD (-1) }
    | _ => r

/-- the rule is added: its class is known and followed by a clause, ABOVEWIDTH with an ENCLOSURE -/
def Lay58.Kept (a : Lay58) (cls : String → Int) : Prop :=
  match a.opt with
  | .cls _ .plain => False
  | .cls _ (.above _ none) => False
  | .cls n _ => cls n ≠ -1
  | _ => True

/-- a rule of the property -/
inductive Text58
  | adj (a : Adj58)
  | layer (a : Lay58)

def Text58.body : Text58 → List LTok
  | .adj a => a.body
  | .layer a => a.body

def Text58.toks (t : Text58) : List LTok := kw "SPACING" :: t.body ++ [kw ";"]

/-- the texts of the numbers and the name in a rule -/
def Adj58.words (a : Adj58) : List String :=
  [a.spacing.text, a.cuts.text, a.within.text] ++ (a.exact.map (·.text)).toList ++ (a.two.map (·.1.text)).toList ++ ((a.two.bind (·.2.1)).map (·.text)).toList ++
  (a.allWithin.map (·.text)).toList ++ (a.enc.map (·.2.text)).toList ++ (a.cls.map (·.1)).toList

def Conc58.words : Conc58 → List String
  | .always => []
  | .width w e l => [w.text, e.text, l.text]
  | .parallel p w e => [p.text, w.text, e.text]
  | .edge l e a => [l.text, e.text, a.text]

def LCls58.words : LCls58 → List String
  | .short p => (p.map (·.text)).toList
  | .concave c => c.words
  | .ext n => [n.text]
  | .convex w m => w.text :: (m.map (·.text)).toList
  | .above w e => w.text :: (e.map (·.text)).toList
  | _ => []

def LOpt58.words : LOpt58 → List String
  | .orth n => [n.text]
  | .cls n o => n :: o.words
  | _ => []

def Lay58.words (a : Lay58) : List String := [a.spacing.text, a.layer] ++ a.opt.words

/-- numbers and names are not words of the language -/
def Text58.Ok : Text58 → Prop
  | .adj a => ∀ w ∈ a.words, w ∉ reserved58
  | .layer a => ∀ w ∈ a.words, w ∉ reserved58

/-- a rule is added as it is written, if it is of a kind that is kept -/
inductive Text58.Reads (cls : String → Int) : Text58 → List R58 → Prop
  | adj {a : Adj58} {k : Int} (h : a.Kept cls k) : Reads cls (.adj a) [{ rule := a.rule k }]
  | adjDropped {a : Adj58} (h : ¬ ∃ k, a.Kept cls k) : Reads cls (.adj a) []
  | layer {a : Lay58} (h : a.Kept cls) : Reads cls (.layer a) [{ rule := a.rule cls, layer2 := a.layer }]
  | layerDropped {a : Lay58} (h : ¬ a.Kept cls) : Reads cls (.layer a) []

/-- the rules of a property, one after the other -/
inductive Reads58 (cls : String → Int) : List Text58 → List R58 → Prop
  | nil : Reads58 cls [] []
  | cons {t : Text58} {ts : List Text58} {r rs : List R58} (h : t.Reads cls r) (hs : Reads58 cls ts rs) : Reads58 cls (t :: ts) (r ++ rs)

/-- `CUTCLASS n WIDTH w [LENGTH l] [CUTS k] ;` -/
structure Class58 where
  name : String
  width : Num58
  length : Option Num58 := none
  cuts : Option Num58 := none

def Class58.toks (c : Class58) : List LTok :=
  [kw "CUTCLASS", ⟨c.name, none⟩, kw "WIDTH", c.width.tok] ++ optNum "LENGTH" c.length ++ optNum "CUTS" c.cuts ++ [kw ";"]

/-- the class as it is written: as long as wide if no length is given, one cut if no number is given -/
def Class58.cls (c : Class58) : CutCls where
  name := c.name
  width := c.width.dbu
  length := some ((c.length.map (·.dbu)).getD c.width.dbu)
  cuts := some ((c.cuts.map (·.int)).getD 1)

/-- number `k` is that of the last class with that name -/
def LastOfName (cs : List CutCls) (n : String) (k : Int) : Prop :=
  ∃ i : Nat, k = i ∧ (∃ c, cs[i]? = some c ∧ c.name = n) ∧ ∀ (j : Nat) (c : CutCls), i < j → cs[j]? = some c → c.name ≠ n

end TR
