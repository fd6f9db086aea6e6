import Verif.Guide.Attempt
/-! # Model: the guides and pins that are kept

Models `genGuides_final` — src/io/io_guide.cpp:688-812 — with the predecessors left by the search, and `genGuides` (565-686) with it.
Simplifications: the places of pins are listed in the order of the nodes instead of pin by pin (the order has no effect); the messages
"genGuides_final error 1/2" and "pin not in any guide" are not modelled (a place is then missing; it is proved that none is); the driver runs
the successful search a second time to read its predecessors. -/
namespace TR

/-- `adjVisited` and `adjPrevIdx` after the search — src/io/io_guide.cpp:857-1000. -/
def guideTree (T : GuideTech) (segs : List GSeg) (pins : List (List Node)) (ft : Bool) (pen : Nat) (pick : Nat → Nat → Nat) (fuel : Nat) : Option NS :=
  (netRounds (guideAdj T segs.length ft (guideMap T segs pins)) segs.length (segs.length + pins.length) pen pick fuel
    (segs.length + pins.length - 1 - segs.length) 0 ⟨fun _ => false, fun _ => none⟩ (fun _ => false)).map (·.1)

/-- the end of a guide where a pin is — src/io/io_guide.cpp:713-719, 731-737. -/
def finalCell (T : GuideTech) (s : GSeg) (ns : List Node) : Option Node :=
  if T.cell s.l s.t s.b ∈ ns then some (T.cell s.l s.t s.b)
  else if T.cell s.l s.t s.e ∈ ns then some (T.cell s.l s.t s.e)
  else none

/-- `pinIdx2GCellUpdated`: numbers of pins with their places — src/io/io_guide.cpp:696-741. -/
def finalPlaces (T : GuideTech) (segs : List GSeg) (pins : List (List Node)) (st : NS) : List (Nat × Node) :=
  (List.range (segs.length + pins.length)).filterMap fun i =>
    if st.vis i = false then none
    else match st.prev i with
      | none => none
      | some p =>
        if i < segs.length ∧ segs.length ≤ p then
          match segs[i]?, pins[p - segs.length]? with
          | some s, some ns => (finalCell T s ns).map fun c => (p - segs.length, c)
          | _, _ => none
        else if segs.length ≤ i ∧ p < segs.length then
          match segs[p]?, pins[i - segs.length]? with
          | some s, some ns => (finalCell T s ns).map fun c => (i - segs.length, c)
          | _, _ => none
        else none

def finalInserts (T : GuideTech) (segs : List GSeg) (pins : List (List Node)) (st : NS) : List (Node × Nat) :=
  (finalPlaces T segs pins st).map (fun x => (x.2, x.1 + segs.length)) ++
  segs.zipIdx.flatMap (fun (s, i) => if st.vis i then (s.ends T).map (fun n => (n, i)) else [])

/-- `updatedNodeMap` — src/io/io_guide.cpp:749-774. -/
def guideEndMap (T : GuideTech) (segs : List GSeg) (pins : List (List Node)) (st : NS) : NodeMap :=
  (finalInserts T segs pins st).foldl (fun m x => NodeMap.ins x.1 x.2 m) []

/-- cut off an end of a guide — src/io/io_guide.cpp:783-790. -/
def GSeg.cutEnd (T : GuideTech) (s : GSeg) (n : Node) : GSeg := if (T.cell s.l s.t s.b).pt = n.pt then { s with b := s.e } else { s with e := s.b }

/-- one entry of the map — src/io/io_guide.cpp:775-797; `none`: the program exits ("pin dangling"). -/
def finalTrim (T : GuideTech) (g : Nat) (m : NodeMap) (acc : Option (List GSeg)) (x : Node × List Nat) : Option (List GSeg) :=
  match acc with
  | none => none
  | some segs =>
    match x.2 with
    | [i] =>
      if i < g then
        if m.at ⟨x.1.pt, x.1.layer + 2⟩ = [] ∧ m.at ⟨x.1.pt, x.1.layer - 2⟩ = [] then
          some (segs.mapIdx fun j s => if j = i then s.cutEnd T x.1 else s)
        else some segs
      else none
    | _ => some segs

/-- the guides of the net, with their numbers among the split guides, and the places of its pins — src/io/io_guide.cpp:760, 798-812. -/
structure GFinal where
  guides : List (Nat × GSeg)
  pins : List (Nat × Node)
deriving DecidableEq, Repr

/-- `genGuides_final` — src/io/io_guide.cpp:688-812. -/
def finalGuides (T : GuideTech) (segs : List GSeg) (pins : List (List Node)) (st : NS) : Option GFinal :=
  match (guideEndMap T segs pins st).foldl (finalTrim T segs.length (guideEndMap T segs pins st)) (some segs) with
  | none => none
  | some out => some ⟨(out.zipIdx.filter fun x => st.vis x.2).map (fun x => (x.2, x.1)), finalPlaces T segs pins st⟩

/-- search and `genGuides_final` — src/io/io_guide.cpp:654-663. -/
def guideFinish (T : GuideTech) (iv : Intvs) (pinCells : List (List Node)) (retry ft : Bool) (pen : Nat) (pick : Nat → Nat → Nat) (fuel : Nat) : Option GFinal :=
  match splitGuides T iv pinCells retry with
  | none => none
  | some segs =>
    match guideTree T segs (guidePins T iv pinCells) ft pen pick fuel with
    | none => none
    | some st => finalGuides T segs (guidePins T iv pinCells) st

/-- `genGuides` up to the guides of the net — src/io/io_guide.cpp:576-686. -/
def netGuides (T : GuideTech) (idxOf : Point → Point) (rects : List GuideRect) (pinCells : List (List Node)) (allowFt : Bool)
    (pen : Nat) (pick : Nat → Nat → Nat) (fuel : Nat) : Option GFinal :=
  match mergeGuides T idxOf rects with
  | none => none
  | some iv =>
    match guideAttempt T iv pinCells false allowFt pen pick fuel with
    | none => none
    | some r =>
      if r.2.ok then guideFinish T iv pinCells false allowFt pen pick fuel
      else match guideAttempt T iv pinCells true allowFt pen pick fuel with
        | none => none
        | some r =>
          if r.2.ok then guideFinish T iv pinCells true allowFt pen pick fuel
          else if allowFt then none
          else match guideAttempt T iv pinCells true true pen pick fuel with
            | none => none
            | some r => if r.2.ok then guideFinish T iv pinCells true true pen pick fuel else none

/-- the guide objects: centres of the GCells at the ends — src/io/io_guide.cpp:803-812; `G` is the grid of GCells -/
def GSeg.placed (T : GuideTech) (centre : Point → Point) (s : GSeg) : Int × Point × Point :=
  (s.l, centre (T.cell s.l s.t s.b).pt, centre (T.cell s.l s.t s.e).pt)

end TR
