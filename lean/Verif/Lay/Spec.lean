import Verif.Lay.Model
import Verif.Cut58.ReadSpec
import Verif.Tech.Spec
import Verif.GC.ShapeSpec
/-! # Specification: what the layers of a LEF file say -/
namespace TR

/-! ### layers -/

/-- the routing and cut layers of the file, in order -/
def fileLays : List LefLay → List TLay
  | [] => []
  | .routing n :: t => ⟨n, .routing⟩ :: fileLays t
  | .cut n :: t => ⟨n, .cut⟩ :: fileLays t
  | .masterslice _ _ :: t => fileLays t
  | .other _ :: t => fileLays t

/-- the layers that are put before them -/
def defaultLays : List TLay → List TLay
  | [] => []
  | l :: _ => match l.kind with
    | .routing => [⟨"FR_MASTERSLICE", .masterslice⟩, ⟨"FR_VIA", .cut⟩]
    | _ => [⟨"FR_MASTERSLICE", .masterslice⟩]

/-- routing and cut layers take turns -/
def TakesTurns (ls : List TLay) : Prop := ∀ i a b, ls[i]? = some a → ls[i + 1]? = some b → a.kind ≠ b.kind

/-! ### spacing -/

/-- a SPACING statement for any two shapes, without a condition that the program does not know -/
def LefSpc.Plain (s : LefSpc) : Prop :=
  s.range = false ∧ s.lengthThreshold = false ∧ s.eol = none ∧ s.samenet = none ∧ s.notchLength = false ∧ s.endOfNotch = false

/-- `x` is the last element of the list with the property -/
def LastWith {α : Type} (P : α → Prop) (l : List α) (x : α) : Prop := ∃ a b, l = a ++ x :: b ∧ P x ∧ ∀ y ∈ b, ¬ P y

def LefTbl.Kept : LefTbl → Prop
  | .influence => False
  | _ => True

/-- the run length of row `j` of a TWOWIDTHS table: the last one written in it or in a row before, or else minus the first spacing -/
def RowPrl (rows : List (Int × Option Int × List Int)) (j : Nat) (p : Int) : Prop :=
  (∃ i, i ≤ j ∧ (∃ r, rows[i]? = some r ∧ r.2.1 = some p) ∧ ∀ k r, i < k → k ≤ j → rows[k]? = some r → r.2.1 = none) ∨
  ((∀ k r, k ≤ j → rows[k]? = some r → r.2.1 = none) ∧ ∃ r s, rows[0]? = some r ∧ r.2.2[0]? = some s ∧ (p = s ∧ s ≤ 0 ∨ p = -s ∧ 0 ≤ s))

/-! ### LEF58_MINSTEP -/

/-- `MINSTEP len [MAXEDGES n] [MINADJACENTLENGTH a] [NOBETWEENEOL w] [other words] ;` -/
structure Step58Text where
  len : Num58
  maxEdges : Option Num58 := none
  minAdj : Option Num58 := none
  eol : Option Num58 := none
  other : List String := []

def Step58Text.toks (s : Step58Text) : List LTok :=
  kw "MINSTEP" :: s.len.tok :: optNum "MAXEDGES" s.maxEdges ++ optNum "MINADJACENTLENGTH" s.minAdj ++ optNum "NOBETWEENEOL" s.eol ++ s.other.map kw ++ [kw ";"]

/-- the other words are none of the words above -/
def Step58Text.Ok (s : Step58Text) : Prop := ∀ w ∈ s.other, w ≠ "MINSTEP" ∧ w ≠ "MAXEDGES" ∧ w ≠ "MINADJACENTLENGTH" ∧ w ≠ "NOBETWEENEOL" ∧ w ≠ ";"

/-- the last of the statements up to and with number `i` that gives a value gives this one -/
def LastGiven {α β : Type} (f : α → Option β) (l : List α) (i : Nat) (v : Option β) : Prop :=
  (∃ j, j ≤ i ∧ (∃ x, l[j]? = some x ∧ f x = v) ∧ v.isSome = true ∧ ∀ k x, j < k → k ≤ i → l[k]? = some x → f x = none) ∨
  (v = none ∧ ∀ k x, k ≤ i → l[k]? = some x → f x = none)

/-- the rule that statement `i` of a text adds -/
structure Step58Adds (l : List Step58Text) (i : Nat) (r : Step58R) : Prop where
  here : ∃ s, l[i]? = some s ∧ s.other = [] ∧ r.len = s.len.dbu
  edges : LastGiven (fun s : Step58Text => s.maxEdges.map Num58.int) l i r.maxEdges
  adj : LastGiven (fun s : Step58Text => s.minAdj.map Num58.dbu) l i r.minAdj
  eol : LastGiven (fun s : Step58Text => s.eol.map Num58.dbu) l i r.eol

/-- the rule that a statement says -/
def Step58Text.says (s : Step58Text) : Step58R := ⟨s.len.dbu, s.maxEdges.map Num58.int, s.minAdj.map Num58.dbu, s.eol.map Num58.dbu⟩

/-! ### LEF58_CORNERSPACING -/

/-- what follows CONVEXCORNER or CONCAVECORNER -/
inductive CornHead where
  | convex (sameMask : Bool) (cornerOnly eol jog : Option Num58)
  | concave (minLength : Option Num58) (notch : Option (Option Num58))

def CornHead.toks : CornHead → List LTok
  | .convex m c e j => kw "CONVEXCORNER" :: optKw m "SAMEMASK" ++ optNum "CORNERONLY" c ++ optNum "EXCEPTEOL" e ++ optNum "EXCEPTJOGLENGTH" j
  | .concave l n => kw "CONCAVECORNER" :: optNum "MINLENGTH" l ++
      (match n with | none => [] | some none => [kw "EXCEPTNOTCH"] | some (some x) => [kw "EXCEPTNOTCH", x.tok])

def CornHead.kind : CornHead → CornKind
  | .convex _ _ _ _ => .convex
  | .concave _ _ => .concave

/-- width of EXCEPTEOL -/
def CornHead.eol : CornHead → Option Int
  | .convex _ _ e _ => e.map Num58.dbu
  | .concave _ _ => none

/-- a row `WIDTH w SPACING s [t]` -/
structure CornLine where
  width : Num58
  space : Num58
  second : Option Num58 := none

def CornLine.toks (r : CornLine) : List LTok :=
  [kw "WIDTH", r.width.tok, kw "SPACING", r.space.tok] ++ (match r.second with | none => [] | some t => [t.tok])

/-- `CORNERSPACING head [EXCEPTSAMENET | EXCEPTSAMEMETAL] rows ;` -/
structure CornText where
  head : CornHead
  exceptNet : Bool := false
  exceptMetal : Bool := false
  lines : List CornLine

def CornText.toks (c : CornText) : List LTok :=
  kw "CORNERSPACING" :: c.head.toks ++ optKw c.exceptNet "EXCEPTSAMENET" ++ optKw c.exceptMetal "EXCEPTSAMEMETAL" ++ c.lines.flatMap CornLine.toks ++ [kw ";"]

/-- a number is no word of the language -/
def Num58.Free (n : Num58) : Prop :=
  n.text ∉ [";", "CORNERSPACING", "CONVEXCORNER", "CONCAVECORNER", "EXCEPTSAMENET", "EXCEPTSAMEMETAL", "WIDTH", "CORNERONLY", "EXCEPTEOL", "EXCEPTJOGLENGTH",
    "MINLENGTH", "EXCEPTNOTCH", "SPACING"]

def CornHead.Free : CornHead → Prop
  | .convex _ _ _ j => ∀ n, j = some n → n.Free
  | .concave l _ => ∀ n, l = some n → n.Free

/-- each row has one spacing -/
def CornText.Single (c : CornText) : Prop := ∀ l ∈ c.lines, l.second = none

/-- there are two rows at least, and each has two spacings -/
def CornText.Double (c : CornText) : Prop := 2 ≤ c.lines.length ∧ ∀ l ∈ c.lines, l.second ≠ none

/-- all numbers that the program looks at as words -/
structure CornText.Ok (c : CornText) : Prop where
  head : c.head.Free
  lines : ∀ l ∈ c.lines, l.width.Free ∧ l.space.Free ∧ ∀ n, l.second = some n → n.Free
  ne : c.lines ≠ []

end TR
