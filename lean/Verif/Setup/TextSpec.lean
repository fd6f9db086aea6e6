import Verif.Setup.TextModel
/-! Specification vocabulary for the guide file. -/
namespace TR

/-- a word: at least one character, no white space -/
def IsWord (w : Txt) : Prop := w ≠ [] ∧ ∀ c ∈ w, isSp c = false

/-- a stretch of blanks -/
def IsBlank (s : Txt) : Prop := ∀ c ∈ s, isSp c = true

/-- `line` consists of the words `ws`, separated by blanks, with any blanks before the first one and nothing
after the last one -/
inductive Spelled : Txt → List Txt → Prop where
  | last {s w : Txt} : IsBlank s → IsWord w → Spelled (s ++ w) [w]
  | more {s w line : Txt} {c : Char} {ws : List Txt} : IsBlank s → IsWord w → isSp c = true → Spelled line ws →
      Spelled (s ++ w ++ c :: line) (w :: ws)

/-- a coordinate fits into an `int` -/
def FitsInt (i : Int) : Prop := -2147483648 ≤ i ∧ i ≤ 2147483647

/-- a guide of a guide file: box corners as written and layer name -/
structure GRow where
  x1 : Int
  y1 : Int
  x2 : Int
  y2 : Int
  layer : Txt
deriving DecidableEq, Repr

/-- the guide file format: for every net its name, `(`, one line `x1 y1 x2 y2 layer` per guide, and `)` -/
def fileText (nets : List (Txt × List GRow)) : Txt :=
  nets.flatMap (fun n => n.1 ++ ['\n', '(', '\n'] ++ n.2.flatMap (fun r => rowText r.x1 r.y1 r.x2 r.y2 r.layer) ++ [')', '\n'])

/-- the name of a net as the file format needs it -/
def NetNameOk (n : Txt) : Prop := IsWord n ∧ n ≠ ['('] ∧ n ≠ [')']

/-- the layers on which guides are allowed -/
def GNames.Allowed (d : GNames) (k : Int) : Prop := (d.bottom ≤ k ∨ k = d.viaAccess) ∧ k ≤ d.top

/-- what a guide file says, line by line: `net` is the net of the guides that follow. Empty lines and lines with a
single parenthesis mean nothing; a line of one word names a net of the design; a line of five words is a guide
on an allowed layer. -/
inductive FileMeans (d : GNames) : List Txt → Option Txt → List (Txt × SGuide) → Prop where
  | done {net : Option Txt} : FileMeans d [] net []
  | skip {line : Txt} {rest : List Txt} {net : Option Txt} {gs : List (Txt × SGuide)} :
      (line = [] ∨ line = ['('] ∨ line = [')']) → FileMeans d rest net gs → FileMeans d (line :: rest) net gs
  | name {line n : Txt} {rest : List Txt} {net : Option Txt} {gs : List (Txt × SGuide)} :
      ¬ (line = ['('] ∨ line = [')']) → Spelled line [n] → d.net n = true → FileMeans d rest (some n) gs →
      FileMeans d (line :: rest) net gs
  | guide {line a b c e l n : Txt} {k x1 y1 x2 y2 : Int} {rest : List Txt} {gs : List (Txt × SGuide)} :
      Spelled line [a, b, c, e, l] → d.layer l = some k → d.Allowed k →
      stoi a = some x1 → stoi b = some y1 → stoi c = some x2 → stoi e = some y2 →
      FileMeans d rest (some n) gs → FileMeans d (line :: rest) (some n) ((n, ⟨k, Box.mk4 x1 y1 x2 y2⟩) :: gs)

end TR
