/-!
# Geometry: points, boxes, orientations, transforms

Models `src/db/infra/frPoint.{h,cpp}`, `frBox.{h,cpp}`, `frTransform.h`, `frOrient.h`
and the placement arithmetic of `src/db/obj/frInst.cpp`.

Simplification: `frCoord` (32-bit `int`) is modelled by `Int`; overflow of coordinate
arithmetic is outside this model.
-/

namespace TR

/-- `frPoint` — src/db/infra/frPoint.h:37-76. -/
structure Point where
  x : Int
  y : Int
deriving DecidableEq, Repr, Inhabited

/-- `frPoint::operator<` — src/db/infra/frPoint.h:68-70. -/
def Point.lt (a b : Point) : Bool :=
  if a.x == b.x then decide (a.y < b.y) else decide (a.x < b.x)

/-- `frOrientEnum` — src/frBaseTypes.h:58-67. -/
inductive Orient where
  | R0 | R90 | R180 | R270 | MY | MXR90 | MX | MYR90
deriving DecidableEq, Repr, Inhabited

/-- `frOrient::getName` — src/db/infra/frOrient.h:90-102. -/
def Orient.name : Orient → String
  | .R90 => "frcR90"
  | .R180 => "frcR180"
  | .R270 => "frcR270"
  | .MY => "frcMY"
  | .MYR90 => "frcMYR90"
  | .MX => "frcMX"
  | .MXR90 => "frcMXR90"
  | .R0 => "frcR0"

/-- `frOrient(const frString&)` / `frOrient::set(const frString&)` —
src/db/infra/frOrient.h:41-59, 67-85: every unknown name is R0. -/
def Orient.ofName (s : String) : Orient :=
  if s == "frcR90" then .R90
  else if s == "frcR180" then .R180
  else if s == "frcR270" then .R270
  else if s == "frcMY" then .MY
  else if s == "frcMYR90" then .MYR90
  else if s == "frcMX" then .MX
  else if s == "frcMXR90" then .MXR90
  else .R0

/-- `frTransform` — src/db/infra/frTransform.h:37-156. -/
structure Xform where
  ox : Int
  oy : Int
  ori : Orient
deriving DecidableEq, Repr, Inhabited

/-- `frPoint::transform` — src/db/infra/frPoint.cpp:35-76. -/
def Point.transform (p : Point) (t : Xform) : Point :=
  match t.ori with
  | .R90 => ⟨t.ox - p.y, t.oy + p.x⟩
  | .R180 => ⟨t.ox - p.x, t.oy - p.y⟩
  | .R270 => ⟨t.ox + p.y, t.oy - p.x⟩
  | .MY => ⟨t.ox - p.x, t.oy + p.y⟩
  | .MYR90 => ⟨t.ox - p.y, t.oy - p.x⟩
  | .MX => ⟨t.ox + p.x, t.oy - p.y⟩
  | .MXR90 => ⟨t.ox + p.y, t.oy + p.x⟩
  | .R0 => ⟨t.ox + p.x, t.oy + p.y⟩

/-- `frTransform::revert` — src/db/infra/frTransform.h:101-152. -/
def Xform.revert (t : Xform) : Xform :=
  match t.ori with
  | .R0 => ⟨-t.ox, -t.oy, .R0⟩
  | .R90 => ⟨-t.oy, t.ox, .R270⟩
  | .R180 => ⟨t.ox, t.oy, .R180⟩
  | .R270 => ⟨t.oy, -t.ox, .R90⟩
  | .MY => ⟨t.ox, -t.oy, .MY⟩
  | .MYR90 => ⟨t.oy, t.ox, .MYR90⟩
  | .MX => ⟨-t.ox, t.oy, .MX⟩
  | .MXR90 => ⟨-t.oy, -t.ox, .MXR90⟩

/-- `frTransform::updateXform(size)` — src/db/infra/frTransform.h:72-100. -/
def Xform.update (t : Xform) (size : Point) : Xform :=
  match t.ori with
  | .R90 => ⟨t.ox + size.y, t.oy, t.ori⟩
  | .R180 => ⟨t.ox + size.x, t.oy + size.y, t.ori⟩
  | .R270 => ⟨t.ox, t.oy + size.x, t.ori⟩
  | .MY => ⟨t.ox + size.x, t.oy, t.ori⟩
  | .MXR90 => ⟨t.ox, t.oy, t.ori⟩
  | .MX => ⟨t.ox, t.oy + size.y, t.ori⟩
  | .MYR90 => ⟨t.ox + size.y, t.oy + size.x, t.ori⟩
  | .R0 => ⟨t.ox, t.oy, t.ori⟩

/-- `frBox` as stored: lower-left and upper-right corner — src/db/infra/frBox.h:36-140.
`setUnsafe` (lines 68-71) stores arbitrary corners, so no normalisation is built in. -/
structure Box where
  ll : Point
  ur : Point
deriving DecidableEq, Repr, Inhabited

namespace Box
/-- `left/bottom/right/top` — src/db/infra/frBox.h:73-84. -/
abbrev left (b : Box) : Int := b.ll.x
abbrev bottom (b : Box) : Int := b.ll.y
abbrev right (b : Box) : Int := b.ur.x
abbrev top (b : Box) : Int := b.ur.y

/-- `frBox(llx,lly,urx,ury)` and `frBox::set` — src/db/infra/frBox.h:46-51, 59-64. -/
def mk4 (llx lly urx ury : Int) : Box :=
  ⟨⟨if llx > urx then urx else llx, if lly > ury then ury else lly⟩,
   ⟨if llx > urx then llx else urx, if lly > ury then lly else ury⟩⟩

/-- `frBox::width` / `length` — src/db/infra/frBox.h:97-106. -/
def width (b : Box) : Int := min (b.right - b.left) (b.top - b.bottom)
def length (b : Box) : Int := max (b.right - b.left) (b.top - b.bottom)

/-- `frBox::contains(const frPoint&, incEdges)` — src/db/infra/frBox.h:116-124. -/
def containsPt (b : Box) (p : Point) (incEdges : Bool := true) : Bool :=
  if incEdges then
    decide (b.ll.x ≤ p.x) && decide (p.x ≤ b.ur.x) && decide (b.ll.y ≤ p.y) && decide (p.y ≤ b.ur.y)
  else
    decide (b.ll.x < p.x) && decide (p.x < b.ur.x) && decide (b.ll.y < p.y) && decide (p.y < b.ur.y)

/-- `frBox::contains(const frBox&, incEdges)` — src/db/infra/frBox.h:107-115. -/
def containsBox (b c : Box) (incEdges : Bool := true) : Bool :=
  if incEdges then
    decide (c.right ≤ b.ur.x) && decide (c.left ≥ b.ll.x) && decide (c.top ≤ b.ur.y) && decide (c.bottom ≥ b.ll.y)
  else
    decide (c.right < b.ur.x) && decide (c.left > b.ll.x) && decide (c.top < b.ur.y) && decide (c.bottom > b.ll.y)

/-- `frBox::overlaps` — src/db/infra/frBox.cpp:41-55. -/
def overlaps (b c : Box) (incEdges : Bool := true) : Bool :=
  if incEdges then
    !(decide (b.right < c.left) || decide (b.top < c.bottom) || decide (b.left > c.right) || decide (b.bottom > c.top))
  else
    !(decide (b.right ≤ c.left) || decide (b.top ≤ c.bottom) || decide (b.left ≥ c.right) || decide (b.bottom ≥ c.top))

/-- `frBox::bloat` — src/db/infra/frBox.cpp:57-59 (normalises through `set`). -/
def bloat (b : Box) (d : Int) : Box :=
  mk4 (b.left - d) (b.bottom - d) (b.right + d) (b.top + d)

/-- `frBox::transform` — src/db/infra/frBox.cpp:35-39. -/
def transform (b : Box) (t : Xform) : Box :=
  let l := b.ll.transform t
  let u := b.ur.transform t
  mk4 l.x l.y u.x u.y

/-- `frBox::operator<` — src/db/infra/frBox.h:131-137. -/
def lt (a b : Box) : Bool :=
  if a.ll == b.ll then Point.lt a.ur b.ur else Point.lt a.ll b.ll
end Box

/-- `frBoundary::getBBox` — src/db/obj/frBoundary.h:57-75. -/
def boundaryBBox (pts : List Point) : Box :=
  let init : Point := match pts with | [] => ⟨0, 0⟩ | p :: _ => p
  let r := pts.foldl (fun (acc : Int × Int × Int × Int) p =>
    (if acc.1 < p.x then acc.1 else p.x,
     if acc.2.1 < p.y then acc.2.1 else p.y,
     if acc.2.2.1 > p.x then acc.2.2.1 else p.x,
     if acc.2.2.2 > p.y then acc.2.2.2 else p.y)) (init.x, init.y, init.x, init.y)
  Box.mk4 r.1 r.2.1 r.2.2.1 r.2.2.2

/-- `frBlock::getBoundaryBBox` — src/db/obj/frBlock.h:92-109. `boxIn` is the
caller's box (used as is when the block has no boundary). -/
def blockBBox (boundaries : List (List Point)) (boxIn : Box) : Box :=
  let b0 := match boundaries with | [] => boxIn | b :: _ => boundaryBBox b
  let r := boundaries.foldl (fun (acc : Int × Int × Int × Int) bd =>
    let t := boundaryBBox bd
    (if acc.1 < t.left then acc.1 else t.left,
     if acc.2.1 < t.bottom then acc.2.1 else t.bottom,
     if acc.2.2.1 > t.right then acc.2.2.1 else t.right,
     if acc.2.2.2 > t.top then acc.2.2.2 else t.top)) (b0.left, b0.bottom, b0.right, b0.top)
  Box.mk4 r.1 r.2.1 r.2.2.1 r.2.2.2

/-- Boundary polygon stored for a LEF macro — src/io/io.cpp:4110-4126: the corner
points are built from the raw ORIGIN and SIZE numbers (not `-ORIGIN`, `SIZE-ORIGIN`). -/
def lefBoundary (origin size : Point) : List Point :=
  [⟨origin.x, origin.y⟩, ⟨size.x, origin.y⟩, ⟨size.x, size.y⟩, ⟨origin.x, size.y⟩]

/-- `frInst::getUpdatedXform(in, noOrient)` — src/db/obj/frInst.cpp:58-71.
`t` is the DEF placement (offset and orientation), `mbox` the master's boundary box. -/
def updatedXform (t : Xform) (mbox : Box) (noOrient : Bool := false) : Xform :=
  let origin := (⟨mbox.left, mbox.bottom⟩ : Point).transform ⟨0, 0, t.ori⟩
  let t1 : Xform := ⟨t.ox + origin.x, t.oy + origin.y, t.ori⟩
  if !noOrient then t1.update ⟨mbox.right, mbox.top⟩
  else ⟨t1.ox, t1.oy, .R0⟩

end TR
