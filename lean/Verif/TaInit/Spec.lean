import Verif.TaInit.Model
/-! Specification vocabulary for setting up track assignment, independent of the code. -/
namespace TR

/-- GCells across a direction: the centres `C` and the borders of the cell of a centre -/
structure TaRows (C : Int → Prop) (row : Int → Int × Int) : Prop where
  mem : ∀ c, C c → (row c).1 ≤ c ∧ c ≤ (row c).2
  apart : ∀ c c', C c → C c' → c < c' → (row c).2 ≤ (row c').1

/-- guides of a design: straight between centres of GCells (`C h`: centres across direction `h`), on routing layers whose directions take turns -/
structure GuidePlan (E : TaEnv) (C : Bool → Int → Prop) (gs : List TGuide) : Prop where
  routing : ∀ g ∈ gs, E.routing g.layer = true
  turns : ∀ g ∈ gs, E.dir (g.layer - 2) ≠ E.dir g.layer ∧ E.dir (g.layer + 2) ≠ E.dir g.layer
  straight : ∀ g ∈ gs, g.b.c (E.dir g.layer) = g.e.c (E.dir g.layer) ∧ g.b.a (E.dir g.layer) ≤ g.e.a (E.dir g.layer)
  centres : ∀ g ∈ gs, ∀ h, C h (g.b.c h) ∧ C h (g.e.c h)

/-- every guide of direction `h` has one wire, on its layer and on its track -/
def Laid (E : TaEnv) (h : Bool) (tr : Nat → Int) (gs : List TGuide) : Prop :=
  ∀ (i : Nat) (g : TGuide), gs[i]? = some g → E.dir g.layer = h → ∃ p q, g.routes = [(g.layer, p, q)] ∧ p.c h = tr i ∧ q.c h = tr i

/-- the tracks of the guides of direction `h` lie in their rows of GCells -/
def InRows (E : TaEnv) (h : Bool) (row : Int → Int × Int) (tr : Nat → Int) (gs : List TGuide) : Prop :=
  ∀ (i : Nat) (g : TGuide), gs[i]? = some g → E.dir g.layer = h → (row (g.b.c h)).1 ≤ tr i ∧ tr i ≤ (row (g.b.c h)).2

/-- the places of guides did not change: only the wires may be new -/
def SamePlaces (gs o : List TGuide) : Prop :=
  o.length = gs.length ∧ ∀ (i : Nat) (g g' : TGuide), gs[i]? = some g → o[i]? = some g' → g'.net = g.net ∧ g'.layer = g.layer ∧ g'.b = g.b ∧ g'.e = g.e

/-- panels of one direction: each guide of the direction lies in one of them -/
def PanelsHold (E : TaEnv) (h : Bool) (ps : List (Int × Box × Box)) (gs : List TGuide) : Prop :=
  ∀ g ∈ gs, E.dir g.layer = h → ∃ p ∈ ps, p.2.1.holds g.box = true ∧ p.2.2.meets g.box = true

/-- the guide passes the point -/
def TGuide.Passes (g : TGuide) (p : Point) : Prop :=
  min g.b.x g.e.x ≤ p.x ∧ p.x ≤ max g.b.x g.e.x ∧ min g.b.y g.e.y ≤ p.y ∧ p.y ≤ max g.b.y g.e.y

/-- guide `n` of the same net, on the next routing layer below or above within the layers used, meets an end of `g` -/
def TaNeighbour (E : TaEnv) (g n : TGuide) (p : Point) : Prop :=
  n.net = g.net ∧ n.Passes p ∧ ((n.layer = g.layer - 2 ∧ E.bottom ≤ g.layer - 2) ∨ (n.layer = g.layer + 2 ∧ g.layer + 2 < E.layers))

/-- a guide of one GCell that is given its place by an access point of its net, on its layer -/
def AtPin (E : TaEnv) (g : TGuide) : Prop :=
  g.b = g.e ∧ ∃ t ∈ E.pins, t.at_ = g.b ∧ t.net = g.net ∧ t.inst = true ∧ ∃ ap, some ap ∈ t.aps ∧ ap.2 = g.layer

/-- the GCells across direction `h`: pattern and borders of the die -/
def GGrid.axis (G : GGrid) (h : Bool) : GCellPat × Int × Int := if h then (G.yp, G.die.bottom, G.die.top) else (G.xp, G.die.left, G.die.right)

/-- a centre of GCells across direction `h` -/
def GGrid.Centre (G : GGrid) (h : Bool) (c : Int) : Prop := ∃ i, 0 ≤ i ∧ i < (G.axis h).1.count ∧ c = gcellMid (G.axis h).1 (G.axis h).2.1 (G.axis h).2.2 i

/-- borders of the GCell with a coordinate -/
def GGrid.row (G : GGrid) (h : Bool) (c : Int) : Int × Int :=
  gcellSpan (G.axis h).1 (G.axis h).2.1 (G.axis h).2.2 ((gcellIdx1 (G.axis h).1 c).getD 0)

/-- every GCell is at least two units wide and high -/
def GGrid.Wide (G : GGrid) : Prop := ∀ h i, 0 ≤ i → i < (G.axis h).1.count →
  (gcellSpan (G.axis h).1 (G.axis h).2.1 (G.axis h).2.2 i).1 + 2 ≤ (gcellSpan (G.axis h).1 (G.axis h).2.1 (G.axis h).2.2 i).2

/-- a square end of a wire of half width `hw` at `p` is nearer than `d` to the rectangle, both along x and along y -/
def Crowds (b : Box) (d hw : Int) (p : Point) : Prop :=
  b.left - d < p.x + hw ∧ p.x - hw < b.right + d ∧ b.bottom - d < p.y + hw ∧ p.y - hw < b.top + d

/-- distance kept from a fixed shape: for a terminal the width of the layer; for a wire, via or blockage the spacing of the layer for the width of
the shape (for a blockage the width of the layer if the program is set so) and its extent along the tracks; the width of the layer without a rule -/
def FixSpacing (P : PanelTech) (o : FixObj) (d : Int) : Prop :=
  let w := P.c.width o.layer
  let ow := if o.kind = .obs ∧ P.c.useMinObs = true then w else o.box.width
  let run := if P.c.horz o.layer = true then o.box.right - o.box.left else o.box.top - o.box.bottom
  (o.kind = .term ∧ d = w) ∨
  (o.kind ≠ .term ∧ ((P.c.spc o.layer = none ∧ d = w) ∨ P.c.spc o.layer = some (.fixed d) ∨
    (∃ t, P.c.spc o.layer = some (.prl t) ∧ t.find ow run = some d) ∨ ∃ t, P.c.spc o.layer = some (.tw t) ∧ t.find ow w run = some d))

/-- fixed shapes: at least two units wide and high, with distances that are not negative -/
def FixFine (P : PanelTech) (o : FixObj) : Prop :=
  o.box.left + 2 ≤ o.box.right ∧ o.box.bottom + 2 ≤ o.box.top ∧ 0 ≤ P.c.width o.layer ∧ ∀ d, FixSpacing P o d → 0 ≤ d

/-- the shape counts against wires of net `n` -/
def FixAgainst (n : Nat) (o : FixObj) : Prop := o.kind = .obs ∨ o.net ≠ some n

/-- the layers of the panel -/
def PanelLayer (P : PanelTech) (l : Int) : Prop := P.c.bottom ≤ l ∧ l ≤ P.c.top ∧ P.routing l = true ∧ P.c.horz l = P.horz

/-- a terminal of the net at an end of the guide -/
def PinAtEnd (E : TaEnv) (g : TGuide) (t : GrPin) : Prop := t ∈ E.pins ∧ t.net = g.net ∧ (t.at_ = g.b ∨ t.at_ = g.e)

/-- an access point of the terminal at `q` on the chip -/
def AccessAt (t : GrPin) (q : Point) (l : Int) : Prop := t.inst = true ∧ ∃ ap, some ap ∈ t.aps ∧ q = ⟨ap.1.x + t.shift.x, ap.1.y + t.shift.y⟩ ∧ l = ap.2

/-- every pin of the terminal has its access point -/
def AllAccess (t : GrPin) : Prop := t.inst = true ∧ t.accIdx ≠ -1 ∧ t.pins.length = t.aps.length ∧ (∀ b ∈ t.pins, b = true) ∧ ∀ a ∈ t.aps, a ≠ none

end TR
