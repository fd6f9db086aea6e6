import Verif.Geom.Model
/-! # Model: merging of overlapping wires of a net

Models `checkConnectivity_merge1`, `_merge2`, `_merge3`, `_merge_perform`, `_merge_perform_helper`,
`_merge_commit` — src/dr/FlexDR_conn.cpp:795-1010.

Simplifications:
* `netRouteObjs` is a list of optional wires (`none` = `nullptr`, a removed shape); vias are in the
  same vector but untouched by merging and kept apart here.
* The maps `horzPathSegs`, `vertPathSegs` (layer → track coordinate → wire indices) are one list of
  track keys. The order in which tracks are handled is first occurrence, not map order; two
  different tracks own different wires, so the order has no effect.
* Region-query updates and error messages are dropped. -/
namespace TR

/-- the parts of `frPathSeg` that this pass reads: layer, begin and end point, and whether each end
style is "truncated" — src/db/obj/frShape.h:211-330. -/
structure CWire where
  layer : Int
  b : Point
  e : Point
  truncB : Bool
  truncE : Bool
deriving DecidableEq, Repr

/-- layer, is-horizontal, track coordinate -/
abbrev TrackKey := Int × Bool × Int

/-- track of a wire; slanted wires have none — src/dr/FlexDR_conn.cpp:807-817 (`merge1`). -/
def CWire.key? (w : CWire) : Option TrackKey :=
  if w.b.x = w.e.x then some (w.layer, false, w.b.x)
  else if w.b.y = w.e.y then some (w.layer, true, w.b.y)
  else none

/-- an element of `segSpans`: interval and object index — src/dr/FlexDR_conn.cpp:903. -/
structure Seg where
  b : Int
  e : Int
  idx : Nat
deriving DecidableEq, Repr

/-- `operator<` of `pair<pair<frCoord,frCoord>,int>` (≤ form) -/
def Seg.le (s t : Seg) : Bool :=
  if s.b = t.b then (if s.e = t.e then decide (s.idx ≤ t.idx) else decide (s.e < t.e)) else decide (s.b < t.b)

/-- insertion into a sorted vector -/
def insSeg (s : Seg) : List Seg → List Seg
  | [] => [s]
  | t :: r => if Seg.le s t then s :: t :: r else t :: insSeg s r

/-- `sort(segSpans.begin(), segSpans.end())` — src/dr/FlexDR_conn.cpp:921 (any sorting algorithm
gives this result, because `Seg.le` is a total order). -/
def sortSegs : List Seg → List Seg
  | [] => []
  | s :: r => insSeg s (sortSegs r)

/-- local variables of `merge_perform_helper` — src/dr/FlexDR_conn.cpp:930-933. -/
structure MergeSt where
  ovlp : Nat
  cs : Int
  ce : Int
  lv : List Nat
  victims : List Nat
  spans : List (Int × Int)
deriving DecidableEq, Repr

/-- loop body of `merge_perform_helper` — src/dr/FlexDR_conn.cpp:934-963. -/
def mergeStep (m : MergeSt) (s : Seg) : MergeSt :=
  if s.b ≥ m.ce then
    { ovlp := 0, cs := s.b, ce := s.e, lv := [s.idx],
      victims := if m.ovlp + 1 ≥ 2 then m.victims ++ m.lv else m.victims,
      spans := if m.ovlp + 1 ≥ 2 then m.spans ++ [(m.cs, m.ce)] else m.spans }
  else { m with ovlp := m.ovlp + 1, ce := max m.ce s.e, lv := m.lv ++ [s.idx] }

/-- commit of the last group — src/dr/FlexDR_conn.cpp:964-967. -/
def mergeFinish (m : MergeSt) : List Nat × List (Int × Int) :=
  if m.ovlp ≥ 1 then (m.victims ++ m.lv, m.spans ++ [(m.cs, m.ce)]) else (m.victims, m.spans)

/-- `merge_perform_helper` — src/dr/FlexDR_conn.cpp:926-969; yields victims and merged intervals. -/
def mergeHelper (segs : List Seg) : List Nat × List (Int × Int) :=
  mergeFinish (segs.foldl mergeStep ⟨0, 2147483647, -2147483648, [], [], []⟩)

/-- the interval of a wire along its track — src/dr/FlexDR_conn.cpp:906-919. -/
def CWire.span (w : CWire) (horz : Bool) : Int × Int := if horz then (w.b.x, w.e.x) else (w.b.y, w.e.y)

/-- indices of the wires on a track — `merge1`, src/dr/FlexDR_conn.cpp:804-826. -/
def trackIndices (objs : List (Option CWire)) (k : TrackKey) : List Nat :=
  (List.range objs.length).filter (fun i => decide (((objs[i]?).join.bind CWire.key?) = some k))

/-- `merge_perform` — src/dr/FlexDR_conn.cpp:898-924. -/
def mergePerform (objs : List (Option CWire)) (k : TrackKey) : List Nat × List (Int × Int) :=
  mergeHelper (sortSegs ((trackIndices objs k).filterMap (fun i =>
    (objs[i]?).join.map (fun w => ⟨(w.span k.2.1).1, (w.span k.2.1).2, i⟩))))

/-- `setPoints` on a victim wire — src/dr/FlexDR_conn.cpp:989-997. -/
def CWire.setSpan (w : CWire) (k : TrackKey) (sp : Int × Int) : CWire :=
  if k.2.1 then { w with b := ⟨sp.1, k.2.2⟩, e := ⟨sp.2, k.2.2⟩ }
  else { w with b := ⟨k.2.2, sp.1⟩, e := ⟨k.2.2, sp.2⟩ }

/-- `merge_commit` — src/dr/FlexDR_conn.cpp:971-1010. -/
def mergeCommit (objs : List (Option CWire)) (k : TrackKey) (victims : List Nat)
    (spans : List (Int × Int)) : List (Option CWire) :=
  let objs1 := (victims.zip spans).foldl (fun o vs => o.modify vs.1 (fun w => w.map (·.setSpan k vs.2))) objs
  (victims.drop spans.length).foldl (fun o v => o.set v none) objs1

/-- all tracks that carry a wire -/
def trackKeys (objs : List (Option CWire)) : List TrackKey :=
  (objs.filterMap (fun o => o.bind CWire.key?)).eraseDups

/-- merging for one net: `merge2` for every track, then `merge3` for every track —
src/dr/FlexDR_conn.cpp:829-896. -/
def mergeNet (objs : List (Option CWire)) : List (Option CWire) :=
  ((trackKeys objs).map (fun k => (k, mergePerform objs k))).foldl
    (fun o j => mergeCommit o j.1 j.2.1 j.2.2) objs

/-- the shapes of the net after merging: `initDRObjs` rebuilds the list from the net, in which
removed shapes no longer occur — src/dr/FlexDR_conn.cpp:1006, 1118-1119. -/
def mergedWires (ws : List CWire) : List CWire := (mergeNet (ws.map some)).filterMap id

end TR
