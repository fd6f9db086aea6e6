import Verif.Cost.Nodes
import Verif.Tech.Props
/-! C72: costs of wires near a shape. -/
namespace TR

theorem planarReq_iff (T : CTech) (l : Int) (box : Box) (blk : Bool) (d : Int) :
    planarReq T l box blk = some d ↔ LayerSpacing T l (blk = true ∧ T.useMinObs = true) box.width (T.width l) box.length d := by
  unfold planarReq LayerSpacing
  cases hr : T.spc l with
  | none => simp
  | some r =>
    simp only [Option.bind_some, Bool.and_eq_true]
    by_cases h : blk = true ∧ T.useMinObs = true
    · rw [if_pos h]
      constructor
      · intro e; cases e; exact ⟨r, rfl, fun _ => rfl, fun hn => absurd h hn⟩
      · rintro ⟨r', hr', h1, _⟩; cases hr'; rw [h1 h]
    · rw [if_neg h]
      constructor
      · intro e; exact ⟨r, rfl, fun hn => absurd hn h, fun _ => e⟩
      · rintro ⟨r', hr', _, h2⟩; cases hr'; exact h2 h

/-- distance of a coordinate to an interval -/
def ptIv (x l r : Int) : Int := max (max (l - x) (x - r)) 0

theorem ptBoxDist2_eq (p : Point) (b : Box) :
    ptBoxDist2 p b = ptIv p.x b.left b.right * ptIv p.x b.left b.right + ptIv p.y b.bottom b.top * ptIv p.y b.bottom b.top := rfl

theorem wireSq_proper (p : Point) {h : Int} (hh : 0 ≤ h) : (wireSq p h).Proper := by
  unfold wireSq Box.Proper
  simp only [Box.left, Box.right, Box.bottom, Box.top]
  omega

/-- a corner of the wire is not closer than the wire -/
theorem corner_ge {box : Box} (p : Point) {h : Int} (hh : 0 ≤ h) {x y : Int} (hx : p.x - h ≤ x ∧ x ≤ p.x + h)
    (hy : p.y - h ≤ y ∧ y ≤ p.y + h) {d : Int} (hb : box.Proper) (hlt : ptBoxDist2 ⟨x, y⟩ box < d * d) : Closer (wireSq p h) box d := by
  rw [← cdist2_closer (wireSq_proper p hh) hb]
  rw [ptBoxDist2_eq] at hlt
  unfold cdist2
  have h1 : max (cgapX (wireSq p h) box) 0 ≤ ptIv x box.left box.right := by
    unfold cgapX wireSq ptIv; unfold Box.Proper at hb
    simp only [Box.left, Box.right, Box.bottom, Box.top] at *; omega
  have h2 : max (cgapY (wireSq p h) box) 0 ≤ ptIv y box.bottom box.top := by
    unfold cgapY wireSq ptIv; unfold Box.Proper at hb
    simp only [Box.left, Box.right, Box.bottom, Box.top] at *; omega
  have m1 := Int.mul_le_mul h1 h1 (by omega) (by omega)
  have m2 := Int.mul_le_mul h2 h2 (by omega) (by omega)
  simp only at hlt
  omega

theorem corner_x {box : Box} (p : Point) {h : Int} (hh : 0 ≤ h) (hb : box.Proper) (hw : 2 * h ≤ box.right - box.left) :
    max (cgapX (wireSq p h) box) 0 = ptIv (p.x - h) box.left box.right ∨ max (cgapX (wireSq p h) box) 0 = ptIv (p.x + h) box.left box.right := by
  unfold cgapX wireSq ptIv; unfold Box.Proper at hb
  simp only [Box.left, Box.right, Box.bottom, Box.top] at *; omega

theorem corner_y {box : Box} (p : Point) {h : Int} (hh : 0 ≤ h) (hb : box.Proper) (hw : 2 * h ≤ box.top - box.bottom) :
    max (cgapY (wireSq p h) box) 0 = ptIv (p.y - h) box.bottom box.top ∨ max (cgapY (wireSq p h) box) 0 = ptIv (p.y + h) box.bottom box.top := by
  unfold cgapY wireSq ptIv; unfold Box.Proper at hb
  simp only [Box.left, Box.right, Box.bottom, Box.top] at *; omega

theorem cornerDist2_lt (box : Box) (p : Point) (h e : Int) : cornerDist2 box p h < e ↔
    ptBoxDist2 ⟨p.x + h, p.y - h⟩ box < e ∨ ptBoxDist2 ⟨p.x + h, p.y + h⟩ box < e ∨
    ptBoxDist2 ⟨p.x - h, p.y - h⟩ box < e ∨ ptBoxDist2 ⟨p.x - h, p.y + h⟩ box < e := by
  unfold cornerDist2
  generalize ptBoxDist2 ⟨p.x + h, p.y - h⟩ box = a
  generalize ptBoxDist2 ⟨p.x + h, p.y + h⟩ box = b
  generalize ptBoxDist2 ⟨p.x - h, p.y - h⟩ box = c
  generalize ptBoxDist2 ⟨p.x - h, p.y + h⟩ box = d
  simp only
  omega

theorem corner_sound {box : Box} (p : Point) {h d : Int} (hh : 0 ≤ h) (hb : box.Proper) (hlt : cornerDist2 box p h < d * d) :
    Closer (wireSq p h) box d := by
  rw [cornerDist2_lt] at hlt
  rcases hlt with hlt | hlt | hlt | hlt <;> exact corner_ge p hh (by omega) (by omega) hb hlt

theorem corner_complete {box : Box} (p : Point) {h d : Int} (hh : 0 ≤ h) (hb : box.Proper) (hw : 2 * h ≤ box.right - box.left)
    (hw' : 2 * h ≤ box.top - box.bottom) (hc : Closer (wireSq p h) box d) : cornerDist2 box p h < d * d := by
  rw [← cdist2_closer (wireSq_proper p hh) hb] at hc
  unfold cdist2 at hc
  rw [cornerDist2_lt]
  simp only [ptBoxDist2_eq]
  rcases corner_x p hh hb hw with e1 | e1 <;> rcases corner_y p hh hb hw' with e2 | e2 <;> rw [e1, e2] at hc
  · exact Or.inr (Or.inr (Or.inl hc))
  · exact Or.inr (Or.inr (Or.inr hc))
  · exact Or.inl hc
  · exact Or.inr (Or.inl hc)

theorem count_if (c : Prop) [Decidable c] (t : CTgt) : (if c then [t] else []).count t = if c then 1 else 0 := by
  split <;> simp

theorem tdiv2 {w : Int} (h : 0 ≤ w) : w.tdiv 2 = w / 2 := Int.tdiv_eq_ediv_of_nonneg h

theorem minSpcPlanar_count (T : CTech) (g : Grid) (hs : g.Sorted) (box : Box) (hb : box.Proper) (z : Int) (blk : Bool) (d : Int)
    (hd0 : 0 ≤ d) (hd : LayerSpacing T (g.lay z) (blk = true ∧ T.useMinObs = true) box.width (T.width (g.lay z)) box.length d)
    (hw : 2 ≤ T.width (g.lay z)) (i j : Nat) (p : Point) (hp : NodeAt g i j p) :
    (minSpcPlanar T g box z blk).count (⟨i, j, z⟩, false) =
      if cornerDist2 box p (T.width (g.lay z) / 2) < d * d then 1 else 0 := by
  unfold minSpcPlanar
  rw [(planarReq_iff T (g.lay z) box blk d).2 hd]
  simp only
  rw [tdiv2 (by omega : 0 ≤ T.width (g.lay z))]
  generalize hh : T.width (g.lay z) / 2 = h
  have hh1 : 1 ≤ h := by omega
  rw [nodesIn_count g hs _ _ _ i j p hp _ ⟨rfl, rfl⟩]
  · rw [count_if]
    unfold Box.Proper at hb
    simp only [mk4_has (show box.left - d - h + 1 ≤ box.right + d + h - 1 by omega) (show box.bottom - d - h + 1 ≤ box.top + d + h - 1 by omega)]
    split
    · rfl
    · rename_i hout
      split
      · rename_i hlt
        have hc := corner_sound p (by omega) hb hlt
        have := closer_gaps (wireSq_proper p (by omega)) hb hd0 hc
        unfold cgapX cgapY wireSq at this
        simp only [Box.left, Box.right, Box.bottom, Box.top] at *
        omega
      · rfl
  · intro n t ht
    split at ht
    · rw [List.mem_singleton] at ht; rw [ht]; exact ⟨rfl, rfl⟩
    · cases ht

/-- C72: a node is charged for a wire only if a wire of default width there would come closer to the shape than the spacing required
for the whole length of the shape, and it is charged once.  If the shape is at least as wide as such a wire in both directions, every such
node is charged. -/
theorem c72_planar (T : CTech) (g : Grid) (hs : g.Sorted) (box : Box) (hb : box.Proper) (z : Int) (blk : Bool) (d : Int)
    (hd0 : 0 ≤ d) (hd : LayerSpacing T (g.lay z) (blk = true ∧ T.useMinObs = true) box.width (T.width (g.lay z)) box.length d)
    (hw : 2 ≤ T.width (g.lay z)) (i j : Nat) (p : Point) (hp : NodeAt g i j p) :
    (minSpcPlanar T g box z blk).count (⟨i, j, z⟩, false) ≤ 1 ∧
    ((⟨i, j, z⟩, false) ∈ minSpcPlanar T g box z blk → Closer (wireSq p (T.width (g.lay z) / 2)) box d) ∧
    (2 * (T.width (g.lay z) / 2) ≤ box.width →
      ((⟨i, j, z⟩, false) ∈ minSpcPlanar T g box z blk ↔ Closer (wireSq p (T.width (g.lay z) / 2)) box d)) := by
  have hc := minSpcPlanar_count T g hs box hb z blk d hd0 hd hw i j p hp
  have hh : 0 ≤ T.width (g.lay z) / 2 := by omega
  rw [← List.count_pos_iff, hc]
  refine ⟨by split <;> omega, ?_, ?_⟩
  · intro h
    split at h
    · rename_i hlt; exact corner_sound p hh hb hlt
    · omega
  · intro hwd
    unfold Box.width at hwd
    constructor
    · intro h
      split at h
      · rename_i hlt; exact corner_sound p hh hb hlt
      · omega
    · intro h
      rw [if_pos (corner_complete p hh hb (by omega) (by omega) h)]
      omega

/-- C72: nothing else is charged: all targets are wire counters of grid nodes on the layer of the shape -/
theorem c72_planar_only (T : CTech) (g : Grid) (hs : g.Sorted) (box : Box) (z : Int) (blk : Bool) (t : CTgt)
    (ht : t ∈ minSpcPlanar T g box z blk) : ∃ (i j : Nat) (p : Point), NodeAt g i j p ∧ t = (⟨i, j, z⟩, false) := by
  unfold minSpcPlanar at ht
  split at ht
  · cases ht
  · simp only [List.mem_flatMap] at ht
    obtain ⟨n, hn, ht⟩ := ht
    split at ht
    · rw [List.mem_singleton] at ht
      obtain ⟨i, j, h1, h2, h3⟩ := mem_nodesIn g hs _ hn
      exact ⟨i, j, n.p, h3, by rw [ht, h1, h2]⟩
    · cases ht

/-- C72: at a node that is not charged a wire keeps the spacing required for every run length the shape can have, if the spacing does not
decrease with the run length and the shape is not narrower than a wire. -/
theorem c72_clear (T : CTech) (g : Grid) (hs : g.Sorted) (box : Box) (hb : box.Proper) (z : Int) (d : Int)
    (hd0 : 0 ≤ d) (hd : LayerSpacing T (g.lay z) False box.width (T.width (g.lay z)) box.length d)
    (hw : 2 ≤ T.width (g.lay z)) (hwide : 2 * (T.width (g.lay z) / 2) ≤ box.width) (hm : SpcMono T (g.lay z))
    (i j : Nat) (p : Point) (hp : NodeAt g i j p) (hfree : (⟨i, j, z⟩, false) ∉ minSpcPlanar T g box z false)
    (run e : Int) (he0 : 0 ≤ e) (hrun : run ≤ box.length) (he : LayerSpacing T (g.lay z) False box.width (T.width (g.lay z)) run e) :
    ¬ Closer (wireSq p (T.width (g.lay z) / 2)) box e := by
  intro hc
  apply hfree
  have hd' : LayerSpacing T (g.lay z) (false = true ∧ T.useMinObs = true) box.width (T.width (g.lay z)) box.length d := by
    obtain ⟨r, h1, h2, h3⟩ := hd
    exact ⟨r, h1, (fun h => (by cases h.1)), fun _ => h3 id⟩
  refine ((c72_planar T g hs box hb z false d hd0 hd' hw i j p hp).2.2 hwide).2 ?_
  obtain ⟨r, h1, _, h3⟩ := hd
  obtain ⟨r', h1', _, h3'⟩ := he
  rw [h1] at h1'
  cases h1'
  exact closer_mono he0 (hm r h1 _ _ _ _ _ _ hrun (h3' id) (h3 id)) hc

/-! a small technology and grid for examples -/

def exVia : MzVia := ⟨⟨⟨-30, -20⟩, ⟨30, 20⟩⟩, ⟨⟨-20, -30⟩, ⟨20, 30⟩⟩, [⟨⟨-10, -10⟩, ⟨10, 10⟩⟩]⟩

def exCTech : CTech where
  bottom := 0
  top := 6
  grid := 5
  useMinObs := true
  width := fun l => if l % 2 = 0 then 40 else 20
  pitch := fun _ => 100
  horz := fun l => l % 4 = 2
  minArea := fun _ => 4000
  spc := fun l => if l % 2 = 0 then some (.prl ⟨[0, 100], [0, 200], [[50, 50], [50, 80]]⟩) else none
  eol := fun l => if l % 2 = 0 then [⟨0, 60, 50, 20, 0, 0, false⟩] else []
  via := fun l => if l = 3 ∨ l = 5 then some exVia else none
  cut := fun l => if l % 2 = 1 then [⟨0, 40, false, false, none, false, none, 0, false, false, -1⟩] else []
  inter := fun a b => if a = 3 ∧ b = 5 then some ⟨1, 30, false, false, some 5, false, none, 0, false, false, -1⟩ else none
  mincut := fun _ => [⟨90, none, none⟩]
  through := fun z down h => z == 1 && !down && h

def exCGrid : Grid where
  xs := [0, 100, 200, 300]
  ys := [0, 100, 200]
  zs := [2, 4, 6]
  zDir := fun z => z % 2 = 0
  bits := fun _ => 0
  srcs := fun _ => false
  dsts := fun _ => false
  guides := fun _ => false
  prevs := fun _ => false

example : exCGrid.Sorted ∧ NodeAt exCGrid 1 1 ⟨100, 100⟩ ∧ 2 ≤ exCTech.width (exCGrid.lay 0) ∧
    LayerSpacing exCTech (exCGrid.lay 0) (false = true ∧ exCTech.useMinObs = true) 40 40 240 50 ∧
    (minSpcPlanar exCTech exCGrid ⟨⟨0, 20⟩, ⟨240, 60⟩⟩ 0 false).count (⟨1, 1, 0⟩, false) = 1 := by
  refine ⟨by unfold Grid.Sorted StrictInc; decide, ⟨rfl, rfl⟩, by decide, ⟨_, rfl, by simp, fun _ => by decide⟩, by decide⟩

/-- C72: a shape narrower than the wire can be missed: here it lies inside the metal of the wire, away from its corners, and nothing is charged -/
theorem c72_narrow_missed : ∃ (T : CTech) (g : Grid) (box : Box) (p : Point), g.Sorted ∧ box.Proper ∧ NodeAt g 1 1 p ∧
    LayerSpacing T (g.lay 0) False box.width (T.width (g.lay 0)) box.length 10 ∧
    Closer (wireSq p (T.width (g.lay 0) / 2)) box 10 ∧ minSpcPlanar T g box 0 false = [] := by
  refine ⟨{ exCTech with spc := fun _ => some (.fixed 10) }, exCGrid, ⟨⟨95, 95⟩, ⟨105, 105⟩⟩, ⟨100, 100⟩, by unfold Grid.Sorted StrictInc; decide,
    by unfold Box.Proper; decide, ⟨rfl, rfl⟩, ⟨_, rfl, by simp, fun _ => rfl⟩, ⟨⟨100, 100⟩, ⟨100, 100⟩, by unfold Box.Has wireSq; decide,
    by unfold Box.Has; decide, by decide⟩, by decide⟩

/-- the condition on the rule holds for a plain spacing and for a spacing table that does not decrease -/
theorem spcMono_of (T : CTech) (l : Int) (h : (∃ s, T.spc l = some (.fixed s)) ∨ ∃ t, T.spc l = some (.prl t) ∧ t.Ok ∧ t.Mono) : SpcMono T l := by
  intro r hr w1 w2 p q d e hpq hd he
  rcases h with ⟨s, hs⟩ | ⟨t, hs, hok, hm⟩
  · rw [hs] at hr
    cases hr
    simp only [SpcRule.req, Option.some.injEq] at hd he
    omega
  · rw [hs] at hr
    cases hr
    exact c37_find_mono hok hm (Int.le_refl _) hpq hd he

example : SpcMono exCTech 2 := by
  refine spcMono_of _ _ (Or.inr ⟨_, rfl, ?_, ?_⟩)
  · exact ⟨by unfold StrictInc; decide, by unfold StrictInc; decide, by decide, by decide, rfl, by decide⟩
  · intro i i' j j' l l' x x' hi hj h1 h2 h3 h4
    match i, i', j, j', hi, hj, h1, h2, h3, h4 with
    | 0, 0, 0, 0, _, _, h1, h2, h3, h4 => cases h1; cases h2; cases h3; cases h4; decide
    | 0, 0, 0, 1, _, _, h1, h2, h3, h4 => cases h1; cases h2; cases h3; cases h4; decide
    | 0, 0, 1, 1, _, _, h1, h2, h3, h4 => cases h1; cases h2; cases h3; cases h4; decide
    | 0, 1, 0, 0, _, _, h1, h2, h3, h4 => cases h1; cases h2; cases h3; cases h4; decide
    | 0, 1, 0, 1, _, _, h1, h2, h3, h4 => cases h1; cases h2; cases h3; cases h4; decide
    | 0, 1, 1, 1, _, _, h1, h2, h3, h4 => cases h1; cases h2; cases h3; cases h4; decide
    | 1, 1, 0, 0, _, _, h1, h2, h3, h4 => cases h1; cases h2; cases h3; cases h4; decide
    | 1, 1, 0, 1, _, _, h1, h2, h3, h4 => cases h1; cases h2; cases h3; cases h4; decide
    | 1, 1, 1, 1, _, _, h1, h2, h3, h4 => cases h1; cases h2; cases h3; cases h4; decide
    | _, 0, j + 1, 0, _, hj, _, _, _, _ => omega
    | i + 1, 0, _, _, hi, _, _, _, _, _ => omega
    | _, i + 2, _, _, _, _, _, _, h3, _ => cases h3
    | _, 0, _, j + 2, _, _, _, _, h3, h4 => cases h3; cases h4
    | _, 1, _, j + 2, _, _, _, _, h3, h4 => cases h3; cases h4
    | i + 2, 1, _, _, hi, _, _, _, _, _ => omega
    | _, _, j + 2, 1, _, hj, _, _, _, _ => omega
    | _, _, j + 1, 0, _, hj, _, _, _, _ => omega

end TR
