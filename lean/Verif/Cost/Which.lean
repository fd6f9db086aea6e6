import Verif.Cost.Cuts
import Verif.Cost.History
/-! Which via definitions and rules the cost functions use: C73, C75, and line ends of wires, C77. -/
namespace TR

/-- C73: the via tried at a node next to a shape on layer `l`: upwards the default via of the cut layer
above, if the layer is not the top one, with its lower metal; downwards the default via of the cut
layer below, if the layer is not the bottom one, with its upper metal. The cost is charged at the lower
end of the via. -/
theorem c73_which_via (T : CTech) (l z : Int) (v : MzVia) :
    (T.viaOf l true = some v ↔ l < T.top ∧ T.via (l + 1) = some v) ∧
    (T.viaOf l false = some v ↔ T.bottom < l ∧ T.via (l - 1) = some v) ∧
    v.metal true = v.l1 ∧ v.metal false = v.l2 ∧ viaZ z true = z ∧ viaZ z false = z - 1 := by
  refine ⟨?_, ?_, rfl, rfl, rfl, rfl⟩
  · unfold CTech.viaOf
    by_cases h : l < T.top <;> simp [h]
  · unfold CTech.viaOf
    by_cases h : l > T.bottom
    · have h' : T.bottom < l := h
      simp [h']
    · have h' : ¬ T.bottom < l := h
      simp [h']

/-- C75: the via tried for the spacing between two cut layers is the default via of the next cut layer
above or below (two layer numbers away) if that is a layer of the technology. The rule is the one given
for the pair in either order, the one given on the layer of the cut first. -/
theorem c75_which_rule (T : CTech) (l : Int) (v : MzVia) (r : CutSpRule) (l2 : Int) :
    (T.otherVia l true = some v ↔ l + 2 ≤ T.top ∧ T.via (l + 2) = some v) ∧
    (T.otherVia l false = some v ↔ T.bottom ≤ l - 2 ∧ T.via (l - 2) = some v) ∧
    otherCut l true = l + 2 ∧ otherCut l false = l - 2 ∧
    (T.interRule l l2 = some r ↔ T.inter l l2 = some r ∨ (T.inter l l2 = none ∧ T.inter l2 l = some r)) := by
  refine ⟨?_, ?_, rfl, rfl, ?_⟩
  · unfold CTech.otherVia otherCut
    by_cases h : l + 2 ≤ T.top <;> simp [h]
  · unfold CTech.otherVia otherCut
    by_cases h : l - 2 ≥ T.bottom
    · have h' : T.bottom ≤ l - 2 := h
      simp [h']
    · have h' : ¬ T.bottom ≤ l - 2 := h
      simp [h']
  · unfold CTech.interRule
    cases T.inter l l2 <;> simp

/-- C77: at a planar node, a wire charges its spacing and, exactly if it runs along the preferred
direction of its layer, once for every end-of-line rule and end of the wire in front of which a wire at
the node would lie. -/
theorem c77_wire_line_ends (T : CTech) (g : Grid) (hs : g.Sorted) (sv : MIdx → Option MzVia) (box : Box) (hb : box.Proper)
    (bi ei : MIdx) (heol : EolRulesOk (T.eol (g.lay bi.z))) (hw : 2 ≤ T.width (g.lay bi.z)) (i j : Nat) (p : Point)
    (hp : NodeAt g i j p) :
    (pathTargets T g sv (.wire box bi ei)).count (⟨i, j, bi.z⟩, false) =
      (minSpcPlanar T g box bi.z false).count (⟨i, j, bi.z⟩, false) +
        if (T.horz (g.lay bi.z) = true ↔ bi.y = ei.y) then eolHits (T.eol (g.lay bi.z)) box (wireSq p (T.width (g.lay bi.z) / 2)) else 0 := by
  have hvia : ∀ upper, (minSpcVia T g sv box bi.z upper true false).count ((⟨i, j, bi.z⟩, false) : CTgt) = 0 := by
    intro upper
    rw [List.count_eq_zero]
    intro h
    obtain ⟨_, _, _, _, _, e⟩ := c73_via_only T g hs sv box bi.z upper true false _ h
    simp at e
  have hth : (viaThrough T bi ei).count ((⟨i, j, bi.z⟩, false) : CTgt) = 0 := by
    rw [List.count_eq_zero]
    unfold viaThrough
    simp only [List.mem_flatMap, List.mem_append, not_exists, not_and]
    intro n _ h
    rcases h with h | h <;> split at h <;> simp at h
  simp only [pathTargets, List.count_append, hvia, hth, Nat.add_zero]
  congr 1
  have hc : (T.horz (g.lay bi.z) = decide (bi.y = ei.y)) ↔ (T.horz (g.lay bi.z) = true ↔ bi.y = ei.y) := by
    cases T.horz (g.lay bi.z) <;> by_cases h : bi.y = ei.y <;> simp [h]
  by_cases h : T.horz (g.lay bi.z) = decide (bi.y = ei.y)
  · rw [if_pos h, if_pos (hc.1 h), c74_planar T g hs sv box hb bi.z false heol hw i j p hp]
  · rw [if_neg h, if_neg (fun h' => h (hc.2 h'))]; simp

/-- patches and via metal charge their line ends whatever their direction -/
theorem c77_other_line_ends (T : CTech) (g : Grid) (hs : g.Sorted) (sv : MIdx → Option MzVia) (box : Box) (hb : box.Proper)
    (z : Int) (heol : EolRulesOk (T.eol (g.lay z))) (hw : 2 ≤ T.width (g.lay z)) (i j : Nat) (p : Point) (hp : NodeAt g i j p) :
    (pathTargets T g sv (.patch box z)).count (⟨i, j, z⟩, false) =
      (minSpcPlanar T g box z false).count (⟨i, j, z⟩, false) + eolHits (T.eol (g.lay z)) box (wireSq p (T.width (g.lay z) / 2)) := by
  have hvia : ∀ upper, (minSpcVia T g sv box z upper true false).count ((⟨i, j, z⟩, false) : CTgt) = 0 := by
    intro upper
    rw [List.count_eq_zero]
    intro h
    obtain ⟨_, _, _, _, _, e⟩ := c73_via_only T g hs sv box z upper true false _ h
    simp at e
  simp only [pathTargets, List.count_append, hvia, Nat.add_zero, c74_planar T g hs sv box hb z false heol hw i j p hp]

end TR
