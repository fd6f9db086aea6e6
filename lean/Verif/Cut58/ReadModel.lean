import Verif.Cut58.Model
/-! # Reading LEF58_CUTCLASS and LEF58_SPACING of a cut layer

Models `io::Parser::getLef58CutClass`, `getLef58CutSpacing`, `getLef58CutSpacing_helper`, `getLef58CutSpacing_layer`, `getLef58CutSpacing_adjacentCuts`
(src/io/io.cpp:1871-2572), the names of cut classes (src/db/tech/frLayer.h:144-166), the two lists of rules (src/db/tech/frLayer.h:261-267) and the
LEF58 part of `initConstraintLayerIdx` (src/io/io_parser_helper.cpp:190-204).

Simplifications: the text of a property is a list of words; a word that is a number carries the length in database units (`round(x * dbu)`) and the
number that are read from it, and reading a number takes the whole word; messages are left out. A stream that failed reads nothing more, so the rest of the text is dropped where a reading fails; after the end of the text every reading fails.
Fields of a rule that no check reads (for rules with a layer also ENCLOSURE) are read but not kept. -/
namespace TR

/-- a word of the text; `num`: length in database units and integer, if it is a number -/
structure LTok where
  text : String
  num : Option (Int × Int) := none
deriving DecidableEq

/-- a rule that was read, and the name of its second layer ("" if there is none) -/
structure R58 where
  rule : L58Rule := {}
  layer2 : String := ""
deriving DecidableEq

/-- are the next words TO ALL? — src/io/io.cpp:2533-2535. -/
def toAllNext : List LTok → Bool
  | w1 :: w2 :: _ => decide (w1.text = "TO" ∧ w2.text = "ALL")
  | _ => false

/-- the loop over the clauses after ADJACENTCUTS — src/io/io.cpp:2426-2553: `cls` is `getCutClassIdx`; `two` if the inner loop after TWOCUTS
(2437-2460) is reading, which goes on without end when a reading fails (`none`); otherwise the rule and the flag that it is skipped. -/
def adjInner (cls : String → Int) : List LTok → Bool → L58Rule → Bool → Option (L58Rule × Bool)
  | [], two, c, sk => if two = true then none else some (c, sk)
  | t :: ts, two, c, sk =>
    if two = true ∧ t.text = "TWOCUTSSPACING" then
      match ts with
      | ⟨_, some _⟩ :: ts' => adjInner cls ts' true c sk
      | _ => none
    else if two = true ∧ t.text = "SAMECUT" then adjInner cls ts true c sk
    else if t.text = "EXACTALIGNED" then
      match ts with
      | ⟨_, some v⟩ :: ts' => adjInner cls ts' false { c with exactAligned := v.2 } sk
      | _ => some (c, true)
    else if t.text = "TWOCUTS" then
      match ts with
      | ⟨_, some v⟩ :: ts' => adjInner cls ts' true { c with twoCuts := v.2 } sk
      | _ => some (c, true)
    else if t.text = "WITHIN" then
      match ts with
      | ⟨_, some v⟩ :: ts' => adjInner cls ts' false { c with within := v.1 } sk
      | _ => some (c, true)
    else if t.text = "EXCEPTSAMEPGNET" then adjInner cls ts false { c with exceptPG := true } sk
    else if t.text = "EXCEPTALLWITHIN" then
      match ts with
      | ⟨_, some v⟩ :: ts' => adjInner cls ts' false { c with exceptAll := v.1 } sk
      | _ => some (c, true)
    else if t.text = "ENCLOSURE" then
      match ts with
      | [] => some (c, true)
      | u :: us =>
        if u.text = "ABOVE" ∨ u.text = "BELOW" then
          match us with
          | ⟨_, some v⟩ :: ts' => adjInner cls ts' false { c with enclosure := v.1 } sk
          | _ => some (c, true)
        else
          match u with
          | ⟨_, some v⟩ => adjInner cls us false { c with enclosure := v.1 } sk
          | _ => some (c, true)
    else if t.text = "CUTCLASS" then
      match ts with
      | [] => some (c, true)
      | u :: us =>
        let c' := if cls u.text ≠ -1 then { c with cls := cls u.text } else c
        let sk' := if cls u.text ≠ -1 then sk else true
        if us.length < 2 then some (c', sk')
        else if toAllNext us = true then
          match us with
          | _ :: _ :: ts' => adjInner cls ts' false { c' with toAll := true } sk'
          | _ => some (c', sk')
        else adjInner cls us false c' sk'
    else if t.text = "NOPRL" then adjInner cls ts false { c with noPrl := true } sk
    else if t.text = "SIDEPARALLELOVERLAP" then adjInner cls ts false { c with sidePar := true } sk
    else if t.text = "SAMEMASK" then adjInner cls ts false { c with sameMask := true } sk
    else adjInner cls ts false c true

/-- the clauses before ADJACENTCUTS and LAYER — src/io/io.cpp:2085-2106, 2392-2413: `none` if the word is none of them. -/
def headWord (w : String) (c : L58Rule) : Option L58Rule :=
  if w = "CENTERTOCENTER" then some { c with c2c := true }
  else if w = "SAMENET" then some { c with sameNet := true }
  else if w = "SAMEMETAL" then some { c with sameMetal := true }
  else if w = "SAMEVIA" then some { c with sameVia := true }
  else none

/-- the loop of `getLef58CutSpacing_adjacentCuts` — src/io/io.cpp:2391-2555. -/
def adjOuter (cls : String → Int) : List LTok → L58Rule → Bool → Option (L58Rule × Bool)
  | [], c, sk => some (c, sk)
  | t :: ts, c, sk =>
    if t.text = "SPACING" then
      match ts with
      | ⟨_, some v⟩ :: ts' => adjOuter cls ts' { c with spacing := v.1 } sk
      | _ => some (c, true)
    else
      match headWord t.text c with
      | some c' => adjOuter cls ts c' sk
      | none =>
        if t.text = "ADJACENTCUTS" then
          match ts with
          | ⟨_, some v⟩ :: ts' => adjInner cls ts' false { c with adj := v.2 } sk
          | _ => some (c, true)
        else adjOuter cls ts c sk

/-- after WIDTH of a concave corner — src/io/io.cpp:2155-2191: the rest of the text, `none` if the rule is skipped -/
def concWidth : List LTok → Option (List LTok)
  | ⟨_, some _⟩ :: ⟨"ENCLOSURE", _⟩ :: ⟨_, some _⟩ :: ⟨"EDGELENGTH", _⟩ :: ⟨_, some _⟩ :: ts => some ts
  | _ => none

/-- after PARALLEL of a concave corner — src/io/io.cpp:2192-2226. -/
def concPar : List LTok → Option (List LTok)
  | ⟨_, some _⟩ :: ⟨"WITHIN", _⟩ :: ⟨_, some _⟩ :: ⟨"ENCLOSURE", _⟩ :: ⟨_, some _⟩ :: ts => some ts
  | _ => none

/-- after EDGELENGTH of a concave corner — src/io/io.cpp:2227-2257. -/
def concEdge : List LTok → Option (List LTok)
  | ⟨_, some _⟩ :: ⟨"ENCLOSURE", _⟩ :: ⟨_, some _⟩ :: ⟨_, some _⟩ :: ts => some ts
  | _ => none

/-- the branches after CUTCLASS of a rule with a layer — src/io/io.cpp:2129-2328: the rest of the text, or the end of it, the rule and whether it is
skipped. Where a part of a clause is missing the rule is skipped, and nothing read later changes that, so the rest of the text is dropped. -/
def layClass (ts : List LTok) (c : L58Rule) : List LTok × L58Rule × Bool :=
  match ts with
  | [] => ([], c, false)
  | t :: ts =>
    if t.text = "SHORTEDGEONLY" then
      let c := { c with shortEdge := true }
      match ts with
      | [] => ([], c, false)
      | u :: us =>
        if u.text = "PRL" then
          match us with
          | ⟨_, some _⟩ :: us' => (us', c, false)
          | _ => ([], c, true)
        else (us, c, false)
    else if t.text = "CONCAVECORNER" then
      let c := { c with concave := true }
      match ts with
      | [] => ([], c, true)
      | u :: us =>
        let next := if u.text = "WIDTH" then concWidth us else if u.text = "PARALLEL" then concPar us else if u.text = "EDGELENGTH" then concEdge us else some us
        match next with
        | some r => (r, c, false)
        | none => ([], c, true)
    else if t.text = "EXTENSION" then
      match ts with
      | ⟨_, some v⟩ :: us => (us, { c with extension := v.1 }, false)
      | _ => ([], c, true)
    else if t.text = "NONEOLCONVEXCORNER" then
      match ts with
      | ⟨_, some v⟩ :: us =>
        let c := { c with eolWidth := v.1 }
        match us with
        | [] => ([], c, false)
        | u :: us' =>
          if u.text = "MINLENGTH" then
            match us' with
            | ⟨_, some w⟩ :: r => (r, { c with minLength := w.1 }, false)
            | _ => ([], c, true)
          else (us', c, false)
      | _ => ([], c, false)
    else if t.text = "ABOVEWIDTH" then
      match ts with
      | ⟨_, some _⟩ :: us =>
        match us with
        | [] => ([], c, false)
        | u :: us' =>
          if u.text = "ENCLOSURE" then
            match us' with
            | ⟨_, some _⟩ :: r => (r, c, false)
            | _ => ([], c, true)
          else ([], c, true)
      | _ => ([], c, true)
    else if t.text = "MASKOVERLAP" then (ts, c, false)
    else if t.text = "WRONGDIRECTION" then (ts, c, false)
    else (ts, c, true)

/-- after LAYER — src/io/io.cpp:2107-2331: the rest of the text, the rule and whether it is skipped -/
def layTail (cls : String → Int) (ts : List LTok) (c : R58) : List LTok × R58 × Bool :=
  match ts with
  | [] => ([], c, true)
  | n :: ts =>
    let c := { c with layer2 := n.text }
    match ts with
    | [] => ([], c, false)
    | t :: ts =>
      if t.text = "STACK" then (ts, { c with rule := { c.rule with stack := true } }, false)
      else if t.text = "ORTHOGONALSPACING" then
        match ts with
        | ⟨_, some v⟩ :: us => (us, { c with rule := { c.rule with orth := v.1 } }, false)
        | _ => ([], c, true)
      else if t.text = "CUTCLASS" then
        match ts with
        | [] => ([], c, true)
        | u :: us =>
          let r := if cls u.text ≠ -1 then { c.rule with cls := cls u.text } else c.rule
          let x := layClass us r
          (x.1, { c with rule := x.2.1 }, decide (cls u.text = -1) || x.2.2)
      else (ts, c, false)

/-- the loop of `getLef58CutSpacing_layer` — src/io/io.cpp:2084-2332; the text gets shorter in each round, `n` rounds suffice for `n` words -/
def layOuter (cls : String → Int) : Nat → List LTok → R58 → Bool → R58 × Bool
  | 0, _, c, sk => (c, sk)
  | _, [], c, sk => (c, sk)
  | n + 1, t :: ts, c, sk =>
    if t.text = "SPACING" then
      match ts with
      | ⟨_, some v⟩ :: ts' => layOuter cls n ts' { c with rule := { c.rule with spacing := v.1 } } sk
      | _ => (c, true)
    else
      match headWord t.text c.rule with
      | some r => layOuter cls n ts { c with rule := r } sk
      | none =>
        if t.text = "LAYER" then
          let x := layTail cls ts c
          layOuter cls n x.1 x.2.1 (sk || x.2.2)
        else layOuter cls n ts c sk

/-- the keyword that `getLef58CutSpacing_helper` goes by — src/io/io.cpp:1965-2003. -/
def cutKeyword : List LTok → String → String
  | [], k => k
  | t :: ts, k => cutKeyword ts <|
    if t.text = "SPACING" then ""
    else if k = "" ∧ t.text = "SAMEMASK" then "SAMEMASK"
    else if t.text ∈ ["MAXXY", "LAYER", "ADJACENTCUTS", "PARALLELOVERLAP", "PARALLELWITHIN", "SAMEMETALSHAREDEDGE", "AREA"] then t.text
    else k

/-- the words from the last SPACING on (the buffer `ss`) -/
def fromSpacing : List LTok → List LTok → List LTok
  | [], buf => buf
  | t :: ts, buf => fromSpacing ts (if t.text = "SPACING" then [t] else buf ++ [t])

/-- `getLef58CutSpacing_helper` — src/io/io.cpp:1962-2016: `none` if the program never ends; the rule that is added, if any -/
def cutSpacingRule (cls : String → Int) (ts : List LTok) : Option (Option R58) :=
  let k := cutKeyword ts ""
  let text := fromSpacing ts []
  if k = "LAYER" then
    let x := layOuter cls text.length text {} false
    some (if x.2 then none else some x.1)
  else if k = "ADJACENTCUTS" then
    match adjOuter cls text {} false with
    | none => none
    | some (c, sk) => some (if sk then none else some { rule := c })
  else some none

/-- `getLef58CutSpacing` — src/io/io.cpp:2018-2043: the rules that are added, in order; `buf` is the buffer `ss`, which is not emptied by `;` -/
def readSpacing (cls : String → Int) : List LTok → List LTok → Option (List R58)
  | [], _ => some []
  | t :: ts, buf =>
    if t.text = "SPACING" then readSpacing cls ts [t]
    else if t.text = ";" then
      match cutSpacingRule cls (buf ++ [t]) with
      | none => none
      | some r => (readSpacing cls ts (buf ++ [t])).map (r.toList ++ ·)
    else readSpacing cls ts (buf ++ [t])

/-- a cut class: name, width, length and number of cuts -/
structure CutCls where
  name : String := ""
  width : Int := 0
  length : Option Int := none
  cuts : Option Int := none
deriving DecidableEq

/-- `getLef58CutClass` — src/io/io.cpp:1871-1960: the classes that are added, in order; the variables keep their values after `;`. -/
def readClasses : List LTok → CutCls → List CutCls
  | [], _ => []
  | t :: ts, c =>
    if t.text = "CUTCLASS" then
      match ts with
      | u :: us => readClasses us { name := u.text }
      | [] => []
    else if t.text = "WIDTH" then
      match ts with
      | ⟨_, some v⟩ :: us => readClasses us { c with width := v.1 }
      | _ => []
    else if t.text = "LENGTH" then
      match ts with
      | ⟨_, some v⟩ :: us => readClasses us { c with length := some v.1 }
      | _ => []
    else if t.text = "CUTS" then
      match ts with
      | ⟨_, some v⟩ :: us => readClasses us { c with cuts := some v.2 }
      | _ => []
    else if t.text = ";" then { c with length := some (c.length.getD c.width), cuts := some (c.cuts.getD 1) } :: readClasses ts c
    else readClasses ts c

/-- `frLayer::addCutClass` and `getCutClassIdx(name)` — src/db/tech/frLayer.h:144-147, 160-166: the last class of that name -/
def clsByName (cs : List CutCls) (n : String) : Int :=
  (cs.zipIdx.foldl (fun (r : Int) p => if p.1.name = n then (p.2 : Int) else r) (-1))

/-- the properties of a cut layer, in order — src/io/io.cpp:4061-4081 -/
inductive CutProp
  | classes (ts : List LTok)
  | spacing (ts : List LTok)
  | other

/-- the loop over the properties — src/io/io.cpp:4062-4081: cut classes, rules for cuts in general, rules for cuts of one net -/
def readCutLayer : List CutProp → List CutCls → List R58 → Option (List CutCls × List R58)
  | [], cs, rs => some (cs, rs)
  | .classes ts :: ps, cs, rs => readCutLayer ps (cs ++ readClasses ts {}) rs
  | .spacing ts :: ps, cs, rs =>
    match readSpacing (clsByName cs) ts [] with
    | none => none
    | some r => readCutLayer ps cs (rs ++ r)
  | .other :: ps, cs, rs => readCutLayer ps cs rs

/-- `addLef58CutSpacingConstraint` — src/db/tech/frLayer.h:261-267, and the LEF58 part of `initConstraintLayerIdx` — src/io/io_parser_helper.cpp:190-204:
`none` if the program reads a missing layer (null) -/
def link58 (layerNum : String → Option Int) (same : Bool) (rs : List R58) : Option (List L58Rule) :=
  (rs.filter (fun r => r.rule.sameNet == same)).mapM fun r =>
    if r.layer2 = "" then some r.rule else (layerNum r.layer2).map fun n => { r.rule with second := some n }

end TR
