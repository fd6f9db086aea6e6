import Verif.GC.Cut.Model
import Verif.GC.Spec
/-! # Specification of cut spacing -/
namespace TR

/-- the middle of a rectangle, rounded towards zero -/
def IsCentre (a : Box) (p : Point) : Prop := p.x = (a.left + a.right).tdiv 2 ∧ p.y = (a.bottom + a.top).tdiv 2

/-- two cuts are closer than `d`: centres or nearest points, as the rule says -/
def CutNear (c2c : Bool) (a b : Box) (d : Int) : Prop :=
  (c2c = true ∧ ∃ p q : Point, IsCentre a p ∧ IsCentre b q ∧ (p.x - q.x) * (p.x - q.x) + (p.y - q.y) * (p.y - q.y) < d * d) ∨
  (c2c = false ∧ Closer a b d)

/-- a blockage that is wider than the cuts of its layer -/
def WideBlockage (D : CutDb) (l : Int) (r : GRect) : Prop :=
  (D.net r.net).obs = true ∧ D.width l < r.box.right - r.box.left ∧ D.width l < r.box.top - r.box.bottom

/-- `n` other cuts of the layer, none of them a wide blockage, are closer than `within` -/
def NeighboursAtLeast (D : CutDb) (c : CutSpRule) (r : GRect) (n : Nat) : Prop :=
  ∃ L : List GRect, L.Nodup ∧ L.length = n ∧
    ∀ s ∈ L, s ∈ D.rects D.layer ∧ s.id ≠ r.id ∧ ¬ WideBlockage D D.layer s ∧ CutNear c.c2c r.box s.box c.within

/-- the condition of a rule on neighbouring cuts (ADJACENTCUTS): no condition, or the cut is a wide blockage, or a wide blockage is near, or
as many other cuts as the rule says -/
def CutCrowded (D : CutDb) (c : CutSpRule) (r : GRect) : Prop :=
  ∀ k, c.adj = some k → WideBlockage D D.layer r ∨ NeighboursAtLeast D c r k ∨
    ∃ s ∈ D.rects D.layer, s.id ≠ r.id ∧ WideBlockage D D.layer s ∧ CutNear c.c2c r.box s.box c.within

/-- the spacing that a rule requires between two cuts -/
def CutRequired (D : CutDb) (c : CutSpRule) (l1 : Int) (r : GRect) (l2 : Int) (s : GRect) (q : Int) : Prop :=
  (c.adj ≠ none ∧ (WideBlockage D l1 r ∨ WideBlockage D l2 s) ∧ q = c.within) ∨
  (¬ (c.adj ≠ none ∧ (WideBlockage D l1 r ∨ WideBlockage D l2 s)) ∧ q = c.spacing)

/-- the rule looks at the two cuts: a rule for different nets leaves pairs of one net to the rules for one net, if there are any -/
def CutApplies (D : CutDb) (c : CutSpRule) (r s : GRect) : Prop :=
  c.sameNet = true ∨ r.net ≠ s.net ∨ (match c.second with | none => D.consSame = [] | some l => D.interSame l = false)

/-- the cuts lie under or over one piece of metal of their nets that covers the gap -/
def UnderOneMetal (D : CutDb) (r s : GRect) (m : Box) : Prop :=
  ∃ l, (l = D.layer - 1 ∨ l = D.layer + 1) ∧ ∃ t ∈ D.rects l, (t.net = r.net ∨ t.net = s.net) ∧
    t.box.left ≤ m.left ∧ m.right ≤ t.box.right ∧ t.box.bottom ≤ m.bottom ∧ m.top ≤ t.box.top

/-- the violation names the two owners and the gap -/
def CutMarker (D : CutDb) (r s : GRect) (rule : GRule) (m : GMk) : Prop :=
  IsBetween r.box s.box m.box ∧ m.layer = D.layer ∧ m.rule = rule ∧
  m.srcs.Pairwise (· < ·) ∧ ∀ o, o ∈ m.srcs ↔ o = (D.net r.net).owner ∨ o = (D.net s.net).owner

/-- two cuts of the layer touch -/
def CutShort (D : CutDb) (r s : GRect) (m : GMk) : Prop :=
  r.id ≠ s.id ∧ (r.fixed = false ∨ s.fixed = false) ∧ Touches r.box s.box ∧ CutMarker D r s .short m

/-- two cuts of the layer are too close for a rule -/
def CutTooClose (D : CutDb) (c : CutSpRule) (r s : GRect) (m : GMk) : Prop :=
  r.id ≠ s.id ∧ (r.fixed = false ∨ s.fixed = false) ∧ ¬ Touches r.box s.box ∧
  (∃ q, CutRequired D c D.layer r D.layer s q ∧ CutNear c.c2c r.box s.box q) ∧
  ¬ (c.adj ≠ none ∧ c.exceptPG = true ∧ r.net = s.net ∧ (D.net r.net).pg = true) ∧
  (c.parOverlap = true → 0 < runLen r.box s.box ∧ ¬ UnderOneMetal D r s m.box) ∧
  CutMarker D r s (.other c.id) m

/-- `a` lies in `b` -/
def BoxIn (a b : Box) : Prop := b.left ≤ a.left ∧ a.right ≤ b.right ∧ b.bottom ≤ a.bottom ∧ a.top ≤ b.top

/-- cuts of two layers are too close for a rule; the distance of overlapping ones is that of their centres -/
def InterTooClose (D : CutDb) (c : CutSpRule) (r : GRect) (l2 : Int) (s : GRect) (m : GMk) : Prop :=
  (r.fixed = false ∨ s.fixed = false) ∧
  (∃ q, CutRequired D c D.layer r l2 s q ∧
    ((∃ cl, CellOf r.box cl ∧ CellOf s.box cl) ∧ CutNear true r.box s.box q ∨ (¬ ∃ cl, CellOf r.box cl ∧ CellOf s.box cl) ∧ CutNear c.c2c r.box s.box q)) ∧
  ¬ (c.stack = true ∧ c.sameNet = true ∧ r.net = s.net ∧ (BoxIn r.box s.box ∨ BoxIn s.box r.box)) ∧
  CutMarker D r s (.other c.id) m

/-- values of a rule make sense -/
def CutSpRule.Ok (c : CutSpRule) : Prop := 0 ≤ c.spacing ∧ ∀ k, c.adj = some k → 0 < c.within

/-- the rule that counts for two cuts of different layers: the same-net version of the rule for cuts of one net, if there is one -/
def EffectiveRule (c : CutSpRule) (same : Option CutSpRule) (r s : GRect) (c' : CutSpRule) : Prop :=
  ((r.net ≠ s.net ∨ same = none) ∧ c' = c) ∨ (r.net = s.net ∧ same = some c')

/-- no distance of the same-net version of a rule is larger than all those of the rule -/
def SameNotLarger (c : CutSpRule) (same : Option CutSpRule) : Prop :=
  ∀ c', same = some c' → ∀ q, (q = c'.spacing ∨ (c'.adj ≠ none ∧ q = c'.within)) → q ≤ c.spacing ∨ (c.adj ≠ none ∧ q ≤ c.within)

/-- the rules are stored where they belong: rules of the layer itself, and rules with another layer -/
structure CutDb.RulesOk (D : CutDb) : Prop where
  cons : ∀ c ∈ D.cons ++ D.consSame, c.Ok ∧ c.second = none
  inter : ∀ p ∈ D.inter, p.1.Ok ∧ (∃ l, p.1.second = some l ∧ l ≠ D.layer) ∧ ∀ c', p.2 = some c' → c'.Ok

structure CutDb.Ok (D : CutDb) : Prop where
  proper : ∀ l, ∀ r ∈ D.rects l, r.box.left < r.box.right ∧ r.box.bottom < r.box.top
  ids : ∀ l, (D.rects l).Pairwise (fun r s => r.id ≠ s.id)
  idsAcross : ∀ l l', l ≠ l' → ∀ r ∈ D.rects l, ∀ s ∈ D.rects l', r.id ≠ s.id

/-- a query returns, once each and in some order, the shapes of a layer that touch a box -/
def CutQuery (D : CutDb) (query : Int → Box → List GRect) : Prop :=
  ∀ l (b : Box), b.Proper → (query l b).Nodup ∧ ∀ s, s ∈ query l b ↔ s ∈ D.rects l ∧ Touches b s.box

end TR
