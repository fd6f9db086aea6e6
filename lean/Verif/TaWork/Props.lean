import Verif.TaWork.Cuts
import Verif.TaWork.Pass
import Verif.RQueue.Lemmas
/-! # Track assignment: blocked places, and the costs of a later pass (C122 – C126) -/
namespace TR

/-! ### an example: four horizontal tracks on layer 2 -/

def exPanel : PanelTech where
  c := exCTech
  routing := fun l => l % 2 = 0
  locs := fun l => if l = 2 then [0, 100, 200, 300] else []
  horz := true
  nan := 0

/-- spacings of a rule with one value, or of a table with as many entries as it has rows and columns, are defined -/
theorem spcTotal_of (P : PanelTech) (l : Int) (h : (∃ s, P.c.spc l = some (.fixed s) ∧ 0 ≤ s) ∨
    ∃ t, P.c.spc l = some (.prl t) ∧ t.Ok ∧ ∀ r ∈ t.vals, ∀ x ∈ r, 0 ≤ x) : SpcTotal P l := by
  intro r hr w1 w2 p
  rcases h with ⟨s, hs, h0⟩ | ⟨t, hs, hok, h0⟩
  · rw [hs] at hr; cases hr; exact ⟨s, rfl, h0⟩
  · rw [hs] at hr; cases hr
    obtain ⟨i, j, row, x, _, _, h1, h2, h3⟩ := c37_find hok (max w1 w2) p
    exact ⟨x, h3, h0 row (List.mem_of_getElem? h1) x (List.mem_of_getElem? h2)⟩

theorem exTaTbl_ok : (⟨[0, 100], [0, 200], [[50, 50], [50, 80]]⟩ : Tbl2).Ok := by
  refine ⟨?_, ?_, by simp, by simp, rfl, by simp⟩ <;> simp [StrictInc]

theorem exPanel_total : SpcTotal exPanel 2 := by
  refine spcTotal_of _ _ (.inr ⟨_, rfl, exTaTbl_ok, ?_⟩)
  simp

theorem exPanel_mono : SpcMono exPanel.c 2 := by
  refine spcMono_of _ _ (.inr ⟨_, rfl, exTaTbl_ok, ?_⟩)
  intro i i' j j' l l' x x' hi hj h1 h2 h3 h4
  have a : i = 0 ∨ i = 1 := by
    rcases Nat.lt_or_ge i 2 with h | h
    · omega
    · rw [List.getElem?_eq_none (by simpa using h)] at h1; cases h1
  have a' : i' = 0 ∨ i' = 1 := by
    rcases Nat.lt_or_ge i' 2 with h | h
    · omega
    · rw [List.getElem?_eq_none (by simpa using h)] at h3; cases h3
  have hl : l.length = 2 := by
    rcases a with rfl | rfl <;> (simp at h1; subst h1; rfl)
  have hl' : l'.length = 2 := by
    rcases a' with rfl | rfl <;> (simp at h3; subst h3; rfl)
  have b : j = 0 ∨ j = 1 := by
    rcases Nat.lt_or_ge j 2 with h | h
    · omega
    · rw [List.getElem?_eq_none (by omega)] at h2; cases h2
  have b' : j' = 0 ∨ j' = 1 := by
    rcases Nat.lt_or_ge j' 2 with h | h
    · omega
    · rw [List.getElem?_eq_none (by omega)] at h4; cases h4
  rcases a with rfl | rfl <;> rcases a' with rfl | rfl <;> rcases b with rfl | rfl <;> rcases b' with rfl | rfl <;>
    (simp at hi hj h1 h3) <;> (subst h1; subst h3; simp at h2 h4; omega)

theorem exPanel_inc (l : Int) : StrictInc (exPanel.locs l) := by
  unfold exPanel
  dsimp only
  split
  · simp [StrictInc]
  · simp [StrictInc]

/-! ### C122 -/

/-- C122: a shape of a wire or via on layer `l` blocks, for the vias above (`upper`) or below, exactly the points of the panel's tracks where the
metal of such a via on layer `l` would be closer than the rule allows. (`ps`: the shape is a wire and may grow.) -/
theorem c122_via_places (P : PanelTech) (box : Box) (l : Int) (upper ps : Bool) (vd : MzVia) (fl : Int)
    (hlow : P.c.bottom ≤ l) (htop : l ≤ P.c.top) (hend : if upper = true then l < P.c.top else P.c.bottom < l)
    (hvd : P.c.via (if upper = true then l + 1 else l - 1) = some vd) (hfl : ViaTracks P (if upper = true then l + 1 else l - 1) fl)
    (hs : StrictInc (P.locs fl)) (hb : box.Proper) (hv : (if upper = true then vd.l1 else vd.l2).Proper)
    (hr : SpcTotal P l) (hm : SpcMono P.c l) (x t : Int) :
    InSome (viaBlocks P box l upper ps) (ptAC P.horz x t) ↔
      t ∈ P.locs fl ∧ TaNear P l ps box ((if upper = true then vd.l1 else vd.l2).at (ptAC P.horz x t)) :=
  viaBlocks_iff P box l upper ps vd fl hlow htop hend hvd hfl hs hb hv hr hm x t

/-- the vias above a wire from (100, 100) to (400, 100) -/
example : ViaTracks exPanel 3 2 ∧ StrictInc (exPanel.locs 2) ∧ exPanel.c.via 3 = some exVia ∧ exVia.l1.Proper ∧
    (⟨⟨80, 80⟩, ⟨420, 120⟩⟩ : Box).Proper ∧ SpcTotal exPanel 2 ∧ SpcMono exPanel.c 2 :=
  ⟨.inl ⟨rfl, by decide, by decide, by decide, by decide⟩, exPanel_inc 2, rfl, by unfold Box.Proper; decide, by unfold Box.Proper; decide,
    exPanel_total, exPanel_mono⟩
example : viaBlocks exPanel ⟨⟨80, 80⟩, ⟨420, 120⟩⟩ 2 true true = [⟨⟨1, 100⟩, ⟨499, 100⟩⟩] := by decide +kernel

/-- C122: a cut blocks, for the cuts of other vias, the points of the panel's tracks where the cut would be too near to it for a rule of the layer;
for rules between the centres it may also block points that are at the very distance. -/
theorem c122_cut_places (P : PanelTech) (box : Box) (l : Int) (vd : MzVia) (fl : Int)
    (hlow : P.c.bottom ≤ l) (htop : l ≤ P.c.top) (hvd : P.c.via l = some vd) (hfl : ViaTracks P l fl)
    (hs : StrictInc (P.locs fl)) (hb : box.left < box.right ∧ box.bottom < box.top)
    (hv : vd.cutBox.left < 0 ∧ 0 < vd.cutBox.right ∧ vd.cutBox.bottom < 0 ∧ 0 < vd.cutBox.top)
    (hr : ∀ r ∈ P.c.cut l, 0 ≤ r.spacing) (x t : Int) (id : Nat) :
    (t ∈ P.locs fl ∧ (∃ r ∈ P.c.cut l, r.id = id ∧ TaCutHit P false r box (vd.cutBox.at (ptAC P.horz x t)) (ptAC P.horz x t)) →
      ∃ B, (id, B) ∈ cutBlocks P box l ∧ B.Has (ptAC P.horz x t)) ∧
    ((∃ B, (id, B) ∈ cutBlocks P box l ∧ B.Has (ptAC P.horz x t)) →
      t ∈ P.locs fl ∧ ∃ r ∈ P.c.cut l, r.id = id ∧ TaCutHit P true r box (vd.cutBox.at (ptAC P.horz x t)) (ptAC P.horz x t)) :=
  cutBlocks_iff P box l vd fl hlow htop hvd hfl hs hb hv hr x t id

/-- without rules between centres the two are the same -/
theorem c122_cut_places_exact (P : PanelTech) (r : CutSpRule) (box c : Box) (p : Point) (h : r.c2c = false) :
    TaCutHit P true r box c p ↔ TaCutHit P false r box c p := by
  unfold TaCutHit TaCutNear
  rw [h]
  simp only [Bool.false_eq_true, false_and, or_false]

example : ViaTracks exPanel 3 2 ∧ (exVia.cutBox.left < 0 ∧ 0 < exVia.cutBox.right ∧ exVia.cutBox.bottom < 0 ∧ 0 < exVia.cutBox.top) ∧
    (∀ r ∈ exPanel.c.cut 3, 0 ≤ r.spacing) :=
  ⟨.inl ⟨rfl, by decide, by decide, by decide, by decide⟩, by decide, by decide⟩
example : cutBlocks exPanel ⟨⟨90, 90⟩, ⟨110, 110⟩⟩ 3 = [(0, ⟨⟨41, 100⟩, ⟨159, 100⟩⟩)] := by decide +kernel

/-! ### C123 -/

/-- C123, what holds: a shape on layer `l` blocks, for the wires of the layer, exactly the points of a track where the end of a wire would be closer
than the rule allows, on the lowest of the tracks on which a wire can be too near (and on those where none can). Missing: the other tracks near
the shape, for which it is false. -/
theorem c123_wire_places_partial (P : PanelTech) (box : Box) (l : Int) (r : SpcRule) (d : Int)
    (hsp : P.c.spc l = some r) (hd : r.req box.width (P.c.width l) box.length = some d) (hd0 : 0 < d) (hw : 0 ≤ P.c.width l)
    (hs : StrictInc (P.locs l)) (hb : box.Proper) (x t : Int) (ht : t ∈ P.locs l)
    (hfirst : (∀ u ∈ P.locs l, u < t → ∀ y, ¬ Closer box (wireSq (ptAC P.horz y u) (P.c.width l / 2)) d) ∨
      ∀ y, ¬ Closer box (wireSq (ptAC P.horz y t) (P.c.width l / 2)) d) :
    InSome (planarBlocks P box l) (ptAC P.horz x t) ↔ Closer box (wireSq (ptAC P.horz x t) (P.c.width l / 2)) d :=
  planarBlocks_iff P box l r d hsp hd hd0 hw hs hb x t ht hfirst

/-- the wire of the example is near to one track only -/
example : planarBlocks exPanel ⟨⟨80, 80⟩, ⟨420, 120⟩⟩ 2 = [⟨⟨11, 100⟩, ⟨489, 100⟩⟩] := by decide +kernel
theorem exWireFar : ∀ u ∈ exPanel.locs 2, u < 100 → ∀ y, ¬ Closer (⟨⟨80, 80⟩, ⟨420, 120⟩⟩ : Box) (wireSq (ptAC exPanel.horz y u) (exPanel.c.width 2 / 2)) 50 := by
  intro u hu hlt y hc
  have h0 : u = 0 := by
    have : u = 0 ∨ u = 100 ∨ u = 200 ∨ u = 300 := by simpa [exPanel] using hu
    omega
  subst h0
  have := (closer_gaps (by unfold Box.Proper; decide) (by unfold Box.Proper wireSq ptAC; simp [exPanel, exCTech, Box.left, Box.right, Box.bottom, Box.top] <;> omega) (by decide) hc).2
  simp [cgapY, wireSq, ptAC, exPanel, exCTech, Box.bottom, Box.top] at this
  omega
example (x : Int) : InSome (planarBlocks exPanel ⟨⟨80, 80⟩, ⟨420, 120⟩⟩ 2) (ptAC true x 100) ↔
    Closer (⟨⟨80, 80⟩, ⟨420, 120⟩⟩ : Box) (wireSq (ptAC true x 100) 20) 50 :=
  c123_wire_places_partial exPanel ⟨⟨80, 80⟩, ⟨420, 120⟩⟩ 2 _ 50 rfl (by decide +kernel) (by decide) (by decide) (exPanel_inc 2)
    (by unfold Box.Proper; decide) x 100 (by decide) (.inl exWireFar)

/-- the example with tracks at half the pitch -/
def exDense (nan : Int) : PanelTech := { exPanel with locs := fun l => if l = 2 then [0, 50, 100, 150, 200] else [], nan := nan }

/-- C123 is false: the wire from (80, 80) to (420, 120) is near to the tracks at 50, 100 and 150. On the second of them, on which it lies itself, the
end of a wire at x = 489 is only 49 away, and the place is not blocked. -/
theorem c123_second_track_wrong (nan : Int) :
    Closer (⟨⟨80, 80⟩, ⟨420, 120⟩⟩ : Box) (wireSq (ptAC true 489 100) 20) 50 ∧
    ¬ InSome (planarBlocks (exDense nan) ⟨⟨80, 80⟩, ⟨420, 120⟩⟩ 2) (ptAC true 489 100) := by
  constructor
  · exact ⟨⟨420, 100⟩, ⟨469, 100⟩, by unfold Box.Has; decide, by unfold Box.Has wireSq ptAC; decide, by decide⟩
  · have ht : tracksIn [0, 50, 100, 150, 200] 11 189 = [50, 100, 150] := by decide +kernel
    have hq : ((exPanel.c.spc 2).bind fun r => r.req (⟨⟨80, 80⟩, ⟨420, 120⟩⟩ : Box).width (exPanel.c.width 2) (⟨⟨80, 80⟩, ⟨420, 120⟩⟩ : Box).length) = some 50 := by decide +kernel
    have h : planarBlocks (exDense nan) ⟨⟨80, 80⟩, ⟨420, 120⟩⟩ 2 =
        planarLoop nan 50 20 true ⟨⟨80, 80⟩, ⟨420, 120⟩⟩ ⟨⟨-20, -20⟩, ⟨20, 20⟩⟩ (tracksIn [0, 50, 100, 150, 200] 11 189) := by
      unfold planarBlocks
      have h1 : ((exDense nan).c.spc 2).bind (fun r => r.req (⟨⟨80, 80⟩, ⟨420, 120⟩⟩ : Box).width ((exDense nan).c.width 2) (⟨⟨80, 80⟩, ⟨420, 120⟩⟩ : Box).length) = some 50 := hq
      rw [h1]
      rfl
    rw [h, ht]
    rintro ⟨b, hb, hh⟩
    have hr : reachOf nan 50 10 10 = 48 := by
      have hm : (if (50 : Int) * 50 < 10 * 10 then nan else ((isqrt ((50 : Int) * 50 - 10 * 10).toNat : Nat) : Int)) = 48 := by
        rw [if_neg (by decide)]; decide +kernel
      unfold reachOf
      rw [hm]
      decide
    unfold planarLoop planarLoop planarLoop planarLoop at hb
    dsimp only [Box.left, Box.right] at hb
    rw [show ((⟨⟨-20, -20⟩, ⟨20, 20⟩⟩ : Box).transform ⟨80, 50, .R0⟩).transform ⟨80, 100, .R0⟩ = (⟨⟨140, 130⟩, ⟨180, 170⟩⟩ : Box) by decide +kernel] at hb
    have hg : max (cgapY (⟨⟨80, 80⟩, ⟨420, 120⟩⟩ : Box) ⟨⟨140, 130⟩, ⟨180, 170⟩⟩) 0 = 10 := by decide +kernel
    rw [hg, hr] at hb
    simp only [List.mem_cons, List.not_mem_nil, or_false] at hb
    rcases hb with rfl | rfl | rfl <;>
      simp [lineBox, Box.fr, Box.mk4, Box.Has, ptAC, Box.left, Box.right, Box.bottom, Box.top] at hh

/-- C123 is false: on the third of these tracks the blocked places depend on the root of a negative number, which is undefined. -/
theorem c123_third_track_undefined :
    ¬ InSome (planarBlocks (exDense 0) ⟨⟨80, 80⟩, ⟨420, 120⟩⟩ 2) (ptAC true 480 150) ∧
    InSome (planarBlocks (exDense 100) ⟨⟨80, 80⟩, ⟨420, 120⟩⟩ 2) (ptAC true 480 150) := by
  refine ⟨?_, ?_⟩
  · have h : planarBlocks (exDense 0) ⟨⟨80, 80⟩, ⟨420, 120⟩⟩ 2 = [⟨⟨12, 50⟩, ⟨488, 50⟩⟩, ⟨⟨12, 100⟩, ⟨488, 100⟩⟩, ⟨⟨60, 150⟩, ⟨440, 150⟩⟩] := by decide +kernel
    rw [h]
    simp [InSome, Box.Has, ptAC, Box.left, Box.right, Box.bottom, Box.top]
  · have h : planarBlocks (exDense 100) ⟨⟨80, 80⟩, ⟨420, 120⟩⟩ 2 = [⟨⟨12, 50⟩, ⟨488, 50⟩⟩, ⟨⟨12, 100⟩, ⟨488, 100⟩⟩, ⟨⟨-40, 150⟩, ⟨540, 150⟩⟩] := by decide +kernel
    rw [h]
    simp [InSome, Box.Has, ptAC, Box.left, Box.right, Box.bottom, Box.top]


/-! ### C124 -/

/-- C124: at any time of a later pass, whatever has been moved before, the blocked places and the shapes that are stored are those that are stored
when one starts afresh with the wires at their present places -/
theorem c124_stores_fresh {P : PanelTech} {net : Nat → Nat} {G : Nat → WireGuide} {figs : Nat → List TaFig} {fixed : List CostRec} {wires ext : List Nat}
    (h : TaPanel P G figs fixed wires ext) {maxRetry : Nat} (hm : 1 ≤ maxRetry) {pick : Nat → Nat} {fuel : Nat} {s : PassSt}
    (hs : laterPass P net figs fixed wires ext maxRetry G pick fuel = some s) :
    s.st.recs.Perm (addWires P s.st.figs (wires ++ ext) (fixed, [])).1 ∧ s.st.shapes.Perm (addWires P s.st.figs (wires ++ ext) (fixed, [])).2 := by
  have hi := (laterPass_inv h hm hs).inv
  obtain ⟨h1, h2⟩ := addWires_perm (P := P) (figs := s.st.figs) (A := wires ++ ext) (s := (fixed, []))
  exact ⟨hi.recs.trans h1.symm, hi.shapes.trans (by simpa using h2.symm)⟩

/-- C124: and so they hold exactly: the records of the fixed objects, and of each wire the records of its figures; each figure of each wire once -/
theorem c124_stores_content {P : PanelTech} {net : Nat → Nat} {G : Nat → WireGuide} {figs : Nat → List TaFig} {fixed : List CostRec} {wires ext : List Nat}
    (h : TaPanel P G figs fixed wires ext) {maxRetry : Nat} (hm : 1 ≤ maxRetry) {pick : Nat → Nat} {fuel : Nat} {s : PassSt}
    (hs : laterPass P net figs fixed wires ext maxRetry G pick fuel = some s) :
    (∀ r, r ∈ s.st.recs ↔ r ∈ fixed ∨ ∃ p ∈ wires ++ ext, ∃ (k : Nat) (f : TaFig), (s.st.figs p)[k]? = some f ∧ r ∈ figRecs P (.fig p k) f) ∧
    (∀ x, x ∈ s.st.shapes ↔ ∃ p ∈ wires ++ ext, ∃ (k : Nat) (f : TaFig), (s.st.figs p)[k]? = some f ∧ x = (f.layer, f.line, p, k)) := by
  have hi := (laterPass_inv h hm hs).inv
  constructor
  · intro r
    rw [hi.recs.mem_iff]
    unfold allRecs wireRecs recsOf numbered
    simp only [List.mem_append, List.mem_flatMap, Prod.exists, List.mem_zipIdx_iff_getElem?]
    constructor
    · rintro (h | ⟨p, hp, f, k, hk, hr⟩)
      · exact .inl h
      · exact .inr ⟨p, hp, k, f, hk, hr⟩
    · rintro (h | ⟨p, hp, k, f, hk, hr⟩)
      · exact .inl h
      · exact .inr ⟨p, hp, f, k, hk, hr⟩
  · intro x
    rw [hi.shapes.mem_iff]
    unfold allShapes wireShapes shapeOf numbered
    simp only [List.mem_append, List.mem_flatMap, List.mem_map, Prod.exists, List.mem_zipIdx_iff_getElem?]
    constructor
    · rintro ⟨p, hp, f, k, hk, hr⟩
      exact ⟨p, hp, k, f, hk, hr.symm⟩
    · rintro ⟨p, hp, k, f, hk, hr⟩
      exact ⟨p, hp, f, k, hk, hr.symm⟩

/-! ### C125 -/

/-- C125: at any time of a later pass, a wire of the panel has cost 0 if and only if it lies on no place that is blocked by a fixed object or by the
present place of a wire of another net -/
theorem c125_cost_zero {P : PanelTech} {net : Nat → Nat} {G : Nat → WireGuide} {figs : Nat → List TaFig} {fixed : List CostRec} {wires ext : List Nat}
    (h : TaPanel P G figs fixed wires ext) {maxRetry : Nat} (hm : 1 ≤ maxRetry) {pick : Nat → Nat} {fuel : Nat} {s : PassSt}
    (hs : laterPass P net figs fixed wires ext maxRetry G pick fuel = some s) (q : Nat) (hq : q ∈ wires) :
    0 ≤ s.st.cost q ∧ (s.st.cost q = 0 ↔ ¬ TaConflict P net s.st.figs fixed (wires ++ ext) q) := by
  have hi := (laterPass_inv h hm hs).inv
  obtain ⟨c, hc, c0, hc0, hz⟩ := hi.zero q hq
  obtain ⟨c', hc', _, hz'⟩ := fresh_some (net := net) hi.panel hi.recs (List.mem_append_left ext hq)
  rw [hc] at hc'
  cases hc'
  exact ⟨hc0, hz.trans (hz'.trans (hit_iff hi.panel hi.recs q))⟩

/-- C125: the total that is printed is the sum of the costs of the wires of the panel; it is 0 if and only if no wire lies on a blocked place -/
theorem c125_total {P : PanelTech} {net : Nat → Nat} {G : Nat → WireGuide} {figs : Nat → List TaFig} {fixed : List CostRec} {wires ext : List Nat}
    (h : TaPanel P G figs fixed wires ext) {maxRetry : Nat} (hm : 1 ≤ maxRetry) {pick : Nat → Nat} {fuel : Nat} {s : PassSt}
    (hs : laterPass P net figs fixed wires ext maxRetry G pick fuel = some s) :
    s.st.tot = (wires.map s.st.cost).sum ∧ (s.st.tot = 0 ↔ ∀ q ∈ wires, ¬ TaConflict P net s.st.figs fixed (wires ++ ext) q) := by
  have hi := (laterPass_inv h hm hs).inv
  refine ⟨hi.tot, ?_⟩
  rw [hi.tot]
  have hz : ∀ L : List Nat, (∀ q ∈ L, 0 ≤ s.st.cost q) → 0 ≤ (L.map s.st.cost).sum ∧ ((L.map s.st.cost).sum = 0 ↔ ∀ q ∈ L, s.st.cost q = 0) := by
    intro L
    induction L with
    | nil => intro _; simp
    | cons a L ih =>
      intro hL
      obtain ⟨i1, i2⟩ := ih fun q hq => hL q (List.mem_cons_of_mem _ hq)
      have ha := hL a List.mem_cons_self
      rw [List.map_cons, List.sum_cons, List.forall_mem_cons, ← i2]
      constructor
      · omega
      · constructor <;> intro h <;> omega
  refine (hz wires fun q hq => (c125_cost_zero h hm hs q hq).1).2.trans ?_
  constructor
  · intro hh q hq; exact (c125_cost_zero h hm hs q hq).2.1 (hh q hq)
  · intro hh q hq; exact (c125_cost_zero h hm hs q hq).2.2 (hh q hq)

theorem passRun_succ {P : PanelTech} {net : Nat → Nat} {maxRetry : Nat} {G : Nat → WireGuide} {pick : Nat → Nat} : ∀ {n : Nat} {s : PassSt},
    passRun P net maxRetry G pick (n + 1) s =
      (passRun P net maxRetry G pick n s).bind fun x => if x.todo = [] then some x else passStep P net maxRetry G pick x := by
  intro n
  induction n with
  | zero =>
    intro s
    simp only [passRun, Option.bind_some]
    split
    · rfl
    · cases passStep P net maxRetry G pick s <;> rfl
  | succ n ih =>
    intro s
    rw [passRun, passRun.eq_2 P net maxRetry G pick s n]
    split
    · rename_i h0; simp only [Option.bind_some, if_pos h0]
    · cases h1 : passStep P net maxRetry G pick s with
      | none => rfl
      | some s1 => simp only [Option.bind_some]; exact ih

/-- C125: the program does not exit in the middle of a later pass, as long as no place has a violation cost of 2³² − 1 or more -/
theorem c125_no_exit {P : PanelTech} {net : Nat → Nat} {G : Nat → WireGuide} {figs : Nat → List TaFig} {fixed : List CostRec} {wires ext : List Nat}
    (h : TaPanel P G figs fixed wires ext) {maxRetry : Nat} (hm : 1 ≤ maxRetry) {pick : Nat → Nat} {fuel : Nat}
    (hsm : ∀ n s, laterPass P net figs fixed wires ext maxRetry G pick n = some s → ∀ p ∈ wires, ∀ t d,
      drcCost P net (takenOut P s.st p).1 p t (s.st.figs p) = some d → d < 4294967295) :
    ∃ s, laterPass P net figs fixed wires ext maxRetry G pick fuel = some s := by
  induction fuel with
  | zero =>
    obtain ⟨s0, h0, _, _⟩ := initCosts_inv net h
    exact ⟨_, by unfold laterPass; rw [h0, Option.bind_some]; rfl⟩
  | succ n ih =>
    obtain ⟨s, hs⟩ := ih
    have hi := laterPass_inv h hm hs
    have hsm' := hsm n s hs
    obtain ⟨s0, h0, _, _⟩ := initCosts_inv net h
    unfold laterPass at hs ⊢
    rw [h0, Option.bind_some] at hs ⊢
    rw [passRun_succ, hs, Option.bind_some]
    split
    · exact ⟨_, rfl⟩
    · unfold passStep
      split
      · exact ⟨_, rfl⟩
      · rename_i p hp
        dsimp only
        split
        · exact ⟨_, rfl⟩
        · have hpw := hi.todo p (List.mem_of_getElem? hp)
          obtain ⟨x, hx⟩ := assignWire_some hi.inv hpw (hsm' p hpw)
          rw [hx]
          exact ⟨_, rfl⟩

/-! ### C126 -/

theorem requeue_nodup {maxRetry : Nat} {cnt : Nat → Nat} {cost : Nat → Int} : ∀ {L todo : List Nat}, todo.Nodup → (L.foldl (requeue maxRetry cnt cost) todo).Nodup := by
  intro L
  induction L with
  | nil => intro todo h; exact h
  | cons a L ih =>
    intro todo h
    rw [List.foldl_cons]
    refine ih ?_
    unfold requeue
    dsimp only
    have hf := List.Nodup.sublist (List.filter_sublist (p := fun x => decide (x ≠ a))) h
    split
    · refine List.nodup_cons.2 ⟨?_, hf⟩
      rw [List.mem_filter]; simp
    · exact hf

theorem sum_cnt_lt {m : Nat} {c c' : Nat → Nat} {p : Nat} (hle : ∀ q, m - c' q ≤ m - c q) (hp : m - c' p < m - c p) : ∀ {W : List Nat}, p ∈ W →
    (W.map fun q => m - c' q).sum < (W.map fun q => m - c q).sum := by
  have hall : ∀ W : List Nat, (W.map fun q => m - c' q).sum ≤ (W.map fun q => m - c q).sum := by
    intro W
    induction W with
    | nil => exact Nat.le_refl _
    | cons a W ih => rw [List.map_cons, List.map_cons, List.sum_cons, List.sum_cons]; have := hle a; omega
  intro W
  induction W with
  | nil => intro h; cases h
  | cons a W ih =>
    intro h
    rw [List.map_cons, List.map_cons, List.sum_cons, List.sum_cons]
    rcases List.mem_cons.1 h with rfl | h
    · have := hall W; omega
    · have := ih h; have := hle a; omega

def passSize (maxRetry : Nat) (wires : List Nat) (s : PassSt) : Nat := (wires.map fun q => maxRetry - s.cnt q).sum * (wires.length + 1) + s.todo.length

theorem passStep_less {P : PanelTech} {net : Nat → Nat} {G : Nat → WireGuide} {figs : Nat → List TaFig} {fixed : List CostRec} {wires ext : List Nat}
    {maxRetry : Nat} (hm : 1 ≤ maxRetry) {pick : Nat → Nat} {s s' : PassSt} (h : PassInv P net G figs fixed wires ext s) (hn : s.todo.Nodup)
    (h0 : s.todo ≠ []) (hs : passStep P net maxRetry G pick s = some s') : s'.todo.Nodup ∧ passSize maxRetry wires s' < passSize maxRetry wires s := by
  have h' := passStep_inv hm h hs
  have hlen : 0 < s.todo.length := by cases ht : s.todo with
    | nil => exact absurd ht h0
    | cons a l => simp
  have hlt := Nat.mod_lt (pick s.time) hlen
  unfold passStep at hs
  rw [List.getElem?_eq_getElem hlt] at hs
  dsimp only at hs
  generalize hp : s.todo[pick s.time % s.todo.length] = p at hs
  have hpm : p ∈ s.todo := by rw [← hp]; exact List.getElem_mem hlt
  have hfn := List.Nodup.sublist (List.filter_sublist (p := fun x => decide (x ≠ p))) hn
  split at hs
  · cases hs
    refine ⟨hfn, ?_⟩
    unfold passSize
    dsimp only
    have : (s.todo.filter fun x => decide (x ≠ p)).length < s.todo.length := by
      rw [List.length_filter_lt_length_iff_exists]
      exact ⟨p, hpm, by simp⟩
    omega
  · rename_i hc
    obtain ⟨r, _, rfl⟩ := Option.map_eq_some_iff.1 hs
    have hn' := requeue_nodup (maxRetry := maxRetry) (cnt := fun x => if x = p then s.cnt x + 1 else s.cnt x) (cost := r.1.cost) (L := r.2) hfn
    refine ⟨hn', ?_⟩
    have hl := nodup_length_le hn' h'.todo
    have hsum := sum_cnt_lt (m := maxRetry) (c := s.cnt) (c' := fun x => if x = p then s.cnt x + 1 else s.cnt x) (p := p)
      (fun q => by split <;> omega) (by rw [if_pos rfl]; omega) (h.todo p hpm)
    unfold passSize
    dsimp only at hl ⊢
    have := Nat.mul_le_mul_right (wires.length + 1) (Nat.succ_le_of_lt hsum)
    rw [Nat.succ_mul] at this
    omega

theorem passRun_ends {P : PanelTech} {net : Nat → Nat} {G : Nat → WireGuide} {figs : Nat → List TaFig} {fixed : List CostRec} {wires ext : List Nat}
    {maxRetry : Nat} (hm : 1 ≤ maxRetry) {pick : Nat → Nat} : ∀ {fuel : Nat} {s s' : PassSt}, PassInv P net G figs fixed wires ext s → s.todo.Nodup →
    passSize maxRetry wires s ≤ fuel → passRun P net maxRetry G pick fuel s = some s' → s'.todo = [] := by
  intro fuel
  induction fuel with
  | zero =>
    intro s s' h hn hf hs
    unfold passRun at hs
    cases hs
    unfold passSize at hf
    exact List.eq_nil_of_length_eq_zero (by omega)
  | succ n ih =>
    intro s s' h hn hf hs
    unfold passRun at hs
    split at hs
    · cases hs; assumption
    · rename_i h0
      obtain ⟨s1, h1, h2⟩ := Option.bind_eq_some_iff.1 hs
      obtain ⟨n1, l1⟩ := passStep_less hm h hn h0 h1
      exact ih (passStep_inv hm h h1) n1 (by omega) h2

/-- C126: a later pass ends: after that many rounds there is no wire left to be looked at -/
theorem c126_ends {P : PanelTech} {net : Nat → Nat} {G : Nat → WireGuide} {figs : Nat → List TaFig} {fixed : List CostRec} {wires ext : List Nat}
    (h : TaPanel P G figs fixed wires ext) {maxRetry : Nat} (hm : 1 ≤ maxRetry) {pick : Nat → Nat} {fuel : Nat} {s : PassSt}
    (hf : (maxRetry * wires.length) * (wires.length + 1) + wires.length ≤ fuel)
    (hs : laterPass P net figs fixed wires ext maxRetry G pick fuel = some s) : s.todo = [] := by
  have h00 := fun (s : PassSt) (hs : laterPass P net figs fixed wires ext maxRetry G pick 0 = some s) => laterPass_inv h hm hs
  unfold laterPass at hs h00
  obtain ⟨s0, h0, hinv, hfig⟩ := initCosts_inv net h
  rw [h0, Option.bind_some] at hs h00
  refine passRun_ends hm (h00 _ rfl) ?_ ?_ hs
  · exact List.Nodup.sublist List.filter_sublist (List.nodup_append.1 h.nodup).1
  · unfold passSize
    dsimp only
    have h1 : ∀ W : List Nat, (W.map fun _ => maxRetry - 0).sum = maxRetry * W.length := by
      intro W
      induction W with
      | nil => rfl
      | cons a W ih => rw [List.map_cons, List.sum_cons, ih, List.length_cons, Nat.mul_succ]; omega
    rw [h1]
    have := List.length_filter_le (fun q => decide (s0.cost q ≠ 0)) wires
    omega

/-- C126: once a later pass has ended, a wire that still lies on a blocked place has been given a track at least once in the pass; and of the wires
that lay or came to lie on a blocked place none was overlooked -/
theorem c126_none_overlooked {P : PanelTech} {net : Nat → Nat} {G : Nat → WireGuide} {figs : Nat → List TaFig} {fixed : List CostRec} {wires ext : List Nat}
    (h : TaPanel P G figs fixed wires ext) {maxRetry : Nat} (hm : 1 ≤ maxRetry) {pick : Nat → Nat} {fuel : Nat} {s : PassSt}
    (hs : laterPass P net figs fixed wires ext maxRetry G pick fuel = some s) (hend : s.todo = [])
    (q : Nat) (hq : q ∈ wires) (hc : TaConflict P net s.st.figs fixed (wires ++ ext) q) : 1 ≤ s.cnt q := by
  rcases (laterPass_inv h hm hs).pending q hq (fun h0 => ((c125_cost_zero h hm hs q hq).2.1 h0) hc) with h1 | h1
  · rw [hend] at h1; cases h1
  · exact h1

/-- C126: wires that have not been given a track, and wires of other panels, stay where they are; the others are moved across the tracks, as a
whole, onto a track of the panel in their GCell -/
theorem c126_moves {P : PanelTech} {net : Nat → Nat} {G : Nat → WireGuide} {figs : Nat → List TaFig} {fixed : List CostRec} {wires ext : List Nat}
    (h : TaPanel P G figs fixed wires ext) {maxRetry : Nat} (hm : 1 ≤ maxRetry) {pick : Nat → Nat} {fuel : Nat} {s : PassSt}
    (hs : laterPass P net figs fixed wires ext maxRetry G pick fuel = some s) (q : Nat) :
    (s.cnt q = 0 → s.st.figs q = figs q) ∧ (q ∉ wires → s.st.figs q = figs q) ∧
    (1 ≤ s.cnt q → ∃ t ∈ P.locs (G q).l, (G q).lo ≤ t ∧ t < (G q).hi ∧ (∀ f ∈ s.st.figs q, f.OnTrackLine P.horz t) ∧
      s.st.figs q = (figs q).map (TaFig.onTrack P.horz t)) := by
  have hi := laterPass_inv h hm hs
  have hk := hi.kept q
  refine ⟨hk, ?_, ?_⟩
  · intro hq
    refine hk ?_
    by_cases h0 : s.cnt q = 0
    · exact h0
    · exact absurd (hi.cnt q (by omega)) hq
  · intro h1
    obtain ⟨t, ht, h2, h3, h4⟩ := hi.moved q h1
    refine ⟨t, ht, h2, h3, ?_, h4⟩
    intro f hf
    rw [h4] at hf
    obtain ⟨g, _, rfl⟩ := List.mem_map.1 hf
    unfold TaFig.onTrack TaFig.OnTrackLine
    cases g <;> cases P.horz <;> simp


/-- C126: if the cost of a wire is 0, then the metal of its vias is not too near to the wires of other nets: here for a via above a wire
on the layer below its cut. -/
theorem c126_clean_via {P : PanelTech} {net : Nat → Nat} {G : Nat → WireGuide} {figs : Nat → List TaFig} {fixed : List CostRec} {wires ext : List Nat}
    (h : TaPanel P G figs fixed wires ext) {maxRetry : Nat} (hm : 1 ≤ maxRetry) {pick : Nat → Nat} {fuel : Nat} {s : PassSt}
    (hs : laterPass P net figs fixed wires ext maxRetry G pick fuel = some s) (q : Nat) (hq : q ∈ wires) (h0 : s.st.cost q = 0)
    {l : Int} {vd : MzVia} {x t : Int} (hv : TaFig.via (l + 1) vd (ptAC P.horz x t) ∈ s.st.figs q) (hvd : P.c.via (l + 1) = some vd)
    {fl : Int} (hfl : ViaTracks P (l + 1) fl) (ht : t ∈ P.locs fl) (hb : vd.l1.Proper) (hlow : P.c.bottom ≤ l) (htop : l < P.c.top)
    (hr : SpcTotal P l) (hmo : SpcMono P.c l)
    {p : Nat} (hp : p ∈ wires ++ ext) (hnet : net p ≠ net q) {b e : Point} {st : SegStyle} (hf : TaFig.seg l b e st ∈ s.st.figs p)
    (hprop : (DSeg.bbox ⟨0, l, b, e, st⟩).Proper) :
    ¬ TaNear P l true (DSeg.bbox ⟨0, l, b, e, st⟩) (vd.l1.at (ptAC P.horz x t)) := by
  intro hn
  refine (c125_cost_zero h hm hs q hq).2.1 h0 ⟨_, hv, ptAC P.horz x t, ?_, .inr ⟨p, hp, hnet, _, hf, ?_⟩⟩
  · unfold TaFig.line Box.mk4 Box.Has ptAC
    cases P.horz <;> simp [Box.left, Box.right, Box.bottom, Box.top]
  · obtain ⟨B, hB, hh⟩ := (c122_via_places P (DSeg.bbox ⟨0, l, b, e, st⟩) l true true vd fl hlow (by omega) (by simpa using htop) (by simpa using hvd)
      (by simpa using hfl) (h.locs fl) hprop (by simpa using hb) hr hmo x t).2 ⟨ht, by simpa using hn⟩
    exact .inr (.inl ⟨rfl, B, hB, hh⟩)

/-! ### an example: two wires on one track -/

def exTaFigs : Nat → List TaFig := fun q =>
  if q = 0 then [.seg 2 ⟨100, 100⟩ ⟨400, 100⟩ ⟨.extend, 20, .extend, 20, 40⟩]
  else if q = 1 then [.seg 2 ⟨200, 100⟩ ⟨500, 100⟩ ⟨.extend, 20, .extend, 20, 40⟩, .via 3 exVia ⟨500, 100⟩]
  else [.seg 2 ⟨0, 400⟩ ⟨500, 400⟩ ⟨.extend, 20, .extend, 20, 40⟩]
def exFixed : List CostRec := [⟨2, ⟨⟨0, 200⟩, ⟨900, 200⟩⟩, .net 12, .short 2⟩, ⟨2, ⟨⟨0, 0⟩, ⟨900, 0⟩⟩, .unknown, .short 2⟩]
def exNet : Nat → Nat := fun q => q + 10
def exGuide : Nat → WireGuide := fun _ => ⟨2, 0, 400, 0, none⟩

theorem exTaPanel : TaPanel exPanel exGuide exTaFigs exFixed [0, 1] [2] := by
  refine ⟨by decide, exPanel_inc, ?_, ?_, ?_, ?_, ?_, ?_⟩
  · unfold Box.Proper; decide
  · intro r hr p k; simp [exFixed] at hr; rcases hr with rfl | rfl <;> simp
  · intro q hq
    simp at hq
    rcases hq with rfl | rfl | rfl
    · exact ⟨⟨_, List.mem_cons_self, trivial⟩, 100, by simp [exTaFigs, TaFig.OnTrackLine, exPanel]⟩
    · exact ⟨⟨_, List.mem_cons_self, trivial⟩, 100, by simp [exTaFigs, TaFig.OnTrackLine, exPanel]⟩
    · exact ⟨⟨_, List.mem_cons_self, trivial⟩, 400, by simp [exTaFigs, TaFig.OnTrackLine, exPanel]⟩
  · intro q hq
    simp at hq
    rcases hq with rfl | rfl | rfl <;> simp [exTaFigs, exPanel, TaFig.layer, exCTech]
  · intro q hq f hf l t ht
    simp at hq; subst hq
    simp [exTaFigs] at hf; subst hf
    simp only [exPanel] at ht
    split at ht
    · simp at ht; simp [TaFig.OnTrackLine, exPanel]; omega
    · cases ht
  · intro q _; exact ⟨100, by unfold exGuide; decide, by unfold exGuide; decide, by unfold exGuide; decide⟩

/-- at the beginning both wires lie on blocked places -/
example : (laterPass exPanel exNet exTaFigs exFixed [0, 1] [2] 2 exGuide (fun _ => 0) 0).map (fun s => (s.st.cost 0, s.st.cost 1, s.st.tot, s.todo)) = some (290, 290, 580, [0, 1]) := by decide +kernel
/-- one wire is moved, and the pass ends -/
example : (laterPass exPanel exNet exTaFigs exFixed [0, 1] [2] 2 exGuide (fun _ => 0) 14).map (fun s => (s.st.cost 0, s.st.cost 1, s.st.tot, s.todo)) = some (0, 0, 0, []) := by decide +kernel
example : (laterPass exPanel exNet exTaFigs exFixed [0, 1] [2] 2 exGuide (fun _ => 0) 14).map (fun s => (s.st.figs 0, decide (s.st.figs 1 = exTaFigs 1), s.cnt 0, s.cnt 1)) =
    some ([.seg 2 ⟨100, 300⟩ ⟨400, 300⟩ ⟨.extend, 20, .extend, 20, 40⟩], true, 1, 0) := by decide +kernel

end TR
