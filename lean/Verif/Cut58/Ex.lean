import Verif.Cut58.Props
/-! # C153–C155: concrete layers, and what is not checked -/
namespace TR

/-- the three cuts in a row of `exCutDb` (15 apart, of three nets) with cuts of one class -/
def ex58 (cons consSame : List L58Rule) : C58Db where
  base := exCutDb [] [] []
  classes := [(20, 20), (10, 10)]
  rings := fun _ => []
  parts := fun _ _ _ => []
  cons := cons
  consSame := consSame

/-- 20 between cuts with `n` neighbours closer than 16 -/
def ex58Rule (n : Int) : L58Rule := { id := 7, spacing := 20, adj := n, within := 16, cls := 1 }

theorem ex58Rule_ok {n : Int} (h : 0 < n) : (ex58Rule n).AdjOk := by
  refine ⟨rfl, h, ?_, ?_, .inl rfl, ?_⟩ <;> simp [ex58Rule]

theorem ex58_query (a b : List L58Rule) : CutQuery (ex58 a b).base (scanCuts (ex58 a b).base) := scanCuts_query (exCutDb_ok _ _ _)

/-- C153: the cut in the middle has two neighbours, and is reported with both; with three neighbours asked for nothing is reported -/
example : ((ex58 [ex58Rule 2] []).check (scanCuts (ex58 [] []).base) (fun _ _ => []) none).map (fun m => (m.rule, m.srcs)) = [(.other 7, [0, 1]), (.other 7, [1, 2])] ∧
    (ex58 [ex58Rule 3] []).check (scanCuts (ex58 [] []).base) (fun _ _ => []) none = [] ∧ (ex58 [] []).base.Ok := by
  refine ⟨by decide +kernel, by decide +kernel, exCutDb_ok _ _ _⟩

theorem ex58_class {a b : List L58Rule} {i n : Nat} {x y : Int} : (ex58 a b).OfClass (exCut i n x y) 1 := by
  refine (clsOf_iff _ _ (by decide)).1 ?_
  have h : (exCut i n x y).width = 10 ∧ (exCut i n x y).length = 10 := by
    simp only [GRect.width, GRect.length, exCut, Box.left, Box.right, Box.bottom, Box.top]
    omega
  unfold C58Db.clsOf
  rw [h.1, h.2]
  rfl

/-- C154: a rule for cuts of different nets is not applied if the layer also has a rule for cuts of one net: the cuts of nets 0 and 1 violate the general
rule, which is reported without the other rule and not with it. -/
theorem c154_other_nets_missed :
    let rule := ex58Rule 1
    let one : L58Rule := { ex58Rule 1 with id := 8, sameNet := true }
    (∃ r ∈ (exCutDb [] [] []).rects 3, ∃ s ∈ (exCutDb [] [] []).rects 3, r.net ≠ s.net ∧ ∃ m, (ex58 [rule] []).AdjViolation rule r s m) ∧ rule.sameNet = false ∧
    ((ex58 [rule] []).check (scanCuts (ex58 [] []).base) (fun _ _ => []) none).map (fun m => m.srcs) = [[0, 1], [0, 1], [1, 2], [1, 2]] ∧
    (ex58 [rule] [one]).check (scanCuts (ex58 [] []).base) (fun _ _ => []) none = [] := by
  refine ⟨⟨exCut 0 0 0 0, by decide, exCut 1 1 25 0, by decide, by decide, ⟨genIntersect (exCut 0 0 0 0).box (exCut 1 1 25 0).box, 3, .other 7, [0, 1]⟩,
    (adjPair_iff (C := ex58 [ex58Rule 1] []) (exCutDb_ok _ _ _) (ex58_query _ _) (ex58Rule_ok (by decide)) (by decide) (by decide) (by decide) _).1 ?_⟩, rfl,
    by decide +kernel, by decide +kernel⟩
  have h : (ex58 [ex58Rule 1] []).adjPair (scanCuts (ex58 [ex58Rule 1] []).base) (ex58Rule 1) (exCut 0 0 0 0) (exCut 1 1 25 0) (genIntersect (exCut 0 0 0 0).box (exCut 1 1 25 0).box) =
      [⟨genIntersect (exCut 0 0 0 0).box (exCut 1 1 25 0).box, 3, .other 7, [0, 1]⟩] := by decide +kernel
  rw [h]
  exact List.mem_singleton.2 rfl

/-- a cut 12 wide, of no class, with the neighbours of `ex58` -/
def ex58Odd (n : Nat) : C58Db :=
  { ex58 [ex58Rule 2] [] with
    base := { exCutDb [] [] [] with rects := fun l => if l = 3 then [⟨0, Box.mk4 0 0 12 10, 0, false⟩] ++ [exCut 1 1 20 0, exCut 2 2 (-18) 0, exCut 3 3 0 20].take n else [] } }

/-- C153: the count of neighbours of a cut starts one below zero, because the cut itself is found too; a cut of another class is not counted, and needs one
neighbour more: with two neighbours and a rule for two nothing is reported at it -/
theorem c153_other_class :
    ((ex58Odd 2).rect (scanCuts (ex58Odd 2).base) (fun _ _ => []) ⟨0, Box.mk4 0 0 12 10, 0, false⟩) = [] ∧
    ((ex58Odd 3).rect (scanCuts (ex58Odd 3).base) (fun _ _ => []) ⟨0, Box.mk4 0 0 12 10, 0, false⟩).map (fun m => m.srcs) = [[0, 1], [0, 2], [0, 3]] := by
  constructor <;> decide +kernel

/-! ### corners -/

/-- a cut under an L-shaped wire of layer 4 -/
def ell58 (rule : L58Rule) (cut : Box) : C58Db where
  base := { exCutDb [] [] [] with rects := fun l => if l = 3 then [⟨0, cut, 1, false⟩] else if l = 4 then [⟨1, Box.mk4 0 0 10 4, 1, false⟩, ⟨2, Box.mk4 0 0 4 10, 1, false⟩] else [] }
  classes := [(1, 2), (1, 1)]
  rings := fun l => if l = 4 then [(1, ellRing)] else []
  parts := fun _ _ _ => []
  cons := [rule]
  consSame := []

/-- all edges that meet the box -/
def scanEdges (C : C58Db) (l : Int) (b : Box) : List (List GEdge × Nat) :=
  (C.rings l).flatMap fun r => ((List.range r.2.length).filter fun i =>
    let e := ringEdge r.2 i
    decide (max b.left (min e.lo.x e.hi.x) ≤ min b.right (max e.lo.x e.hi.x)) && decide (max b.bottom (min e.lo.y e.hi.y) ≤ min b.top (max e.lo.y e.hi.y))).map fun i => (r.2, i)

theorem scanEdges_query (C : C58Db) : OutlineQuery C (scanEdges C) := by
  intro l b hb ring i
  have key : ∀ e : GEdge, EdgeMeets e b ↔ max b.left (min e.lo.x e.hi.x) ≤ min b.right (max e.lo.x e.hi.x) ∧ max b.bottom (min e.lo.y e.hi.y) ≤ min b.top (max e.lo.y e.hi.y) := by
    intro e
    have := hb.1
    have := hb.2
    unfold EdgeMeets Box.Has
    constructor
    · rintro ⟨p, h⟩
      omega
    · intro h
      refine ⟨⟨max b.left (min e.lo.x e.hi.x), max b.bottom (min e.lo.y e.hi.y)⟩, ?_⟩
      dsimp only
      omega
  unfold scanEdges
  simp only [List.mem_flatMap, List.mem_map, List.mem_filter, List.mem_range, Bool.and_eq_true, decide_eq_true_eq, Prod.mk.injEq]
  constructor
  · rintro ⟨⟨n, rg⟩, h1, j, ⟨h2, h3⟩, rfl, rfl⟩
    refine ⟨⟨n, h1⟩, h2, ringEdge rg j, ?_, (key _).2 h3⟩
    simp only [ringEdge, Nat.mod_eq_of_lt h2, List.getD_eq_getElem?_getD, List.getElem?_eq_getElem h2, Option.getD_some]
  · rintro ⟨⟨n, h1⟩, h2, e, h3, h4⟩
    refine ⟨(n, ring), h1, i, ⟨h2, ?_⟩, rfl, rfl⟩
    have : ringEdge ring i = e := by
      simp only [ringEdge, Nat.mod_eq_of_lt h2, List.getD_eq_getElem?_getD, h3, Option.getD_some]
    rw [this]
    exact (key e).1 h4

def exConcave : L58Rule := { id := 9, spacing := 3, second := some 4, cls := 1, concave := true }

def exConvex : L58Rule := { id := 10, spacing := 3, second := some 4, cls := 1, eolWidth := 3 }

example : exConcave.CornerOk 4 ∧ exConvex.CornerOk 4 := ⟨⟨rfl, ⟨rfl, rfl, rfl, rfl⟩, by decide, by decide⟩, ⟨rfl, ⟨rfl, rfl, rfl, rfl⟩, by decide, by decide⟩⟩

theorem ell58_ok (rule : L58Rule) {cut : Box} (h : cut.left < cut.right ∧ cut.bottom < cut.top) : (ell58 rule cut).base.Ok := by
  constructor
  · intro l r hr
    simp only [ell58] at hr
    split at hr
    · rw [List.mem_singleton] at hr; subst hr; exact h
    · split at hr
      · revert r
        decide
      · cases hr
  · intro l
    simp only [ell58]
    split
    · exact List.pairwise_singleton _ _
    · split <;> decide
  · intro l l' hl r hr s hs
    simp only [ell58] at hr hs
    split at hr <;> split at hs
    · omega
    · split at hs
      · rw [List.mem_singleton] at hr; subst hr
        simp only [List.mem_cons, List.not_mem_nil, or_false] at hs
        rcases hs with rfl | rfl <;> simp
      · cases hs
    · split at hr
      · rw [List.mem_singleton] at hs; subst hs
        simp only [List.mem_cons, List.not_mem_nil, or_false] at hr
        rcases hr with rfl | rfl <;> simp
      · cases hr
    · split at hr <;> split at hs
      · omega
      · cases hs
      · cases hr
      · cases hr

theorem ell58_outline (rule : L58Rule) (cut : Box) : ∀ l n ring, (n, ring) ∈ (ell58 rule cut).rings l → Outline n ring := by
  intro l n ring h
  simp only [ell58] at h
  split at h
  · simp only [List.mem_singleton, Prod.mk.injEq] at h
    obtain ⟨rfl, rfl⟩ := h
    exact c108_concave_missed.2.1
  · cases h

/-- C155: a cut at (2, 2) is too close to the concave corner of the wire, at (4, 4), and to the convex corner at the origin; one at (7, 1) is not -/
example : ((ell58 exConcave (Box.mk4 2 2 3 3)).check (scanCuts (ell58 exConcave (Box.mk4 2 2 3 3)).base) (scanEdges (ell58 exConcave (Box.mk4 2 2 3 3))) none) =
      [⟨Box.mk4 3 3 4 4, 3, .other 9, [1]⟩, ⟨Box.mk4 3 3 4 4, 3, .other 9, [1]⟩] ∧
    ((ell58 exConcave (Box.mk4 7 1 8 2)).check (scanCuts (ell58 exConcave (Box.mk4 7 1 8 2)).base) (scanEdges (ell58 exConcave (Box.mk4 7 1 8 2))) none) = [] ∧
    ((ell58 exConvex (Box.mk4 1 1 2 2)).check (scanCuts (ell58 exConvex (Box.mk4 1 1 2 2)).base) (scanEdges (ell58 exConvex (Box.mk4 1 1 2 2))) none) =
      [⟨Box.mk4 0 0 1 1, 3, .other 10, [1]⟩, ⟨Box.mk4 0 0 1 1, 3, .other 10, [1]⟩] ∧
    ((ell58 exConvex (Box.mk4 2 2 3 3)).check (scanCuts (ell58 exConvex (Box.mk4 2 2 3 3)).base) (scanEdges (ell58 exConvex (Box.mk4 2 2 3 3))) none) = [] := by
  refine ⟨by decide +kernel, by decide +kernel, by decide +kernel, by decide +kernel⟩

/-- C154: of all the rules with another layer only those about corners are checked: a cut right at an edge of the wire above violates nothing, whatever the spacing -/
example (q : Int) : (ell58 { exConcave with concave := false, spacing := q } (Box.mk4 2 2 3 3)).layerPair (scanEdges (ell58 exConcave (Box.mk4 2 2 3 3)))
    { exConcave with concave := false, spacing := q } ⟨0, Box.mk4 2 2 3 3, 1, false⟩ 4 ⟨1, Box.mk4 0 0 10 4, 1, false⟩ = [] :=
  c154_second_layer _ _ (.inr (.inl ⟨rfl, rfl⟩)) _ _ _

end TR
