import Verif.DrPin.Spec
import Verif.GC.Layer
import Verif.Geom.Props
namespace TR

theorem mem_trackLocs {T : ApTech} (h : ∀ l, ∀ p ∈ T.pats l, 0 < p.2.spacing) {l lo hi v : Int}
    (hv : v ∈ trackLocs T l lo hi) : lo ≤ v ∧ v ≤ hi := by
  have := ((c12_coord_vector (((T.pats l).filter fun p => p.1 != T.horz l).map (·.2)) (by
    intro p hp
    obtain ⟨q, hq, rfl⟩ := List.mem_map.1 hp
    exact h l q (List.mem_filter.1 hq).1) lo (hi + 1)).2 v).1 hv
  obtain ⟨p, _, k, _, _, _, h1, h2⟩ := this
  omega

theorem mid_le {a b : Int} (h : a ≤ b) : a ≤ (a + b).tdiv 2 ∧ (a + b).tdiv 2 ≤ b := by
  have := tdiv_centre h
  rw [Int.add_comm] at this
  exact this

theorem cutTo_some {route b c : Box} (hr : route.Proper) (hb : b.Proper) (h : cutTo route b = some c) :
    c.Proper ∧ c.right ≤ route.right ∧ c.top ≤ route.top ∧ route.left ≤ c.left ∧ route.bottom ≤ c.bottom ∧
    b.left ≤ c.left ∧ c.right ≤ b.right ∧ b.bottom ≤ c.bottom ∧ c.top ≤ b.top ∧
    ∀ p, c.Has p ↔ b.Has p ∧ route.Has p := by
  unfold cutTo at h
  split at h
  · injection h with h
    subst h
    simp only [Box.Proper, Box.Has, Box.left, Box.right, Box.top, Box.bottom] at *
    refine ⟨by omega, by omega, by omega, by omega, by omega, by omega, by omega, by omega, by omega, fun p => by omega⟩
  · cases h

theorem cutTo_of {route b : Box} {p : Point} (h1 : b.Has p) (h2 : route.Has p) : ∃ c, cutTo route b = some c := by
  unfold cutTo
  rw [if_pos]
  · exact ⟨_, rfl⟩
  · simp only [Box.Has] at *
    omega

theorem transform_proper (t : Xform) (b : Box) : (b.transform t).Proper := by
  unfold Box.transform
  simp only [Box.mk4_eq, Box.Proper, Box.left, Box.right, Box.top, Box.bottom]
  omega

theorem transform_has (t : Xform) (b : Box) (hb : b.Proper) (p : Point) :
    (b.transform t).Has p ↔ ∃ q, b.Has q ∧ q.transform t = p := by
  have key : ∀ q, (b.transform t).Has (q.transform t) ↔ b.Has q := fun q => c02_box_transform_points t b hb q
  constructor
  · intro h
    have hq := (c01_bijective t).2 p
    obtain ⟨q, hq⟩ := hq
    exact ⟨q, (key q).1 (by rw [hq]; exact h), hq⟩
  · rintro ⟨q, hq, rfl⟩
    exact (key q).2 hq

/-- what is known of a rectangle of the terminal in the region -/
structure CutOk (T : ApTech) (route : Box) (n : NetTerm) (s : Int × Box × Box) : Prop where
  proper : s.2.2.Proper
  bproper : s.2.1.Proper
  right : s.2.2.right ≤ route.right
  top : s.2.2.top ≤ route.top
  left : route.left ≤ s.2.2.left
  bottom : route.bottom ≤ s.2.2.bottom
  sub : s.2.1.left ≤ s.2.2.left ∧ s.2.2.right ≤ s.2.1.right ∧ s.2.1.bottom ≤ s.2.2.bottom ∧ s.2.2.top ≤ s.2.1.top
  has : ∀ p, s.2.2.Has p ↔ s.2.1.Has p ∧ route.Has p
  metal : ∀ p, s.2.1.Has p → n.OnMetal T s.1 p

/-- the rectangles of a pin in the region -/
def pinCuts (T : ApTech) (route : Box) (n : NetTerm) (pin : TermPin) : List (Int × Box × Box) :=
  pin.shapes.filterMap (shapeIn T route (n.inst.map (·.upd)))

theorem shapeIn_box (T : ApTech) (route : Box) (n : NetTerm) (s : Int × Box) (hs : s.2.Proper) :
    ∃ b : Box, b.Proper ∧ (∀ p, b.Has p ↔ ∃ q, s.2.Has q ∧ n.place q = p) ∧
      (n.inst = none → b = s.2) ∧
      shapeIn T route (n.inst.map (·.upd)) s = if T.routing s.1 then (cutTo route b).map fun c => (s.1, b, c) else none := by
  unfold NetTerm.place shapeIn
  cases n.inst with
  | none => exact ⟨s.2, hs, fun p => by simp, fun _ => rfl, rfl⟩
  | some I => exact ⟨s.2.transform I.upd, transform_proper _ _, fun p => transform_has _ _ hs p, fun h => (by cases h), rfl⟩

theorem pinCuts_ok {T : ApTech} {route : Box} {n : NetTerm} (hi : ApInput T n) (hr : route.Proper) {pin : TermPin} (hp : pin ∈ n.pins)
    {s : Int × Box × Box} (hs : s ∈ pinCuts T route n pin) : CutOk T route n s := by
  obtain ⟨t, ht, he⟩ := List.mem_filterMap.1 hs
  obtain ⟨b, hb, hbp, _, hsh⟩ := shapeIn_box T route n t (hi.boxes pin hp t ht)
  rw [hsh] at he
  split at he
  · rename_i hrt
    obtain ⟨c, hc, rfl⟩ := Option.map_eq_some_iff.1 he
    obtain ⟨h1, h2, h3, h4, h5, h6, h7, h8, h9, h10⟩ := cutTo_some hr hb hc
    exact ⟨h1, hb, h2, h3, h4, h5, ⟨h6, h7, h8, h9⟩, h10, fun p hpb => ⟨hrt, pin, hp, t.2, ht, (hbp p).1 hpb⟩⟩
  · cases he

theorem pinCuts_of {T : ApTech} {route : Box} {n : NetTerm} (hi : ApInput T n) {l : Int} {p : Point}
    (hm : n.OnMetal T l p) (hp : route.Has p) :
    ∃ pin ∈ n.pins, ∃ s ∈ pinCuts T route n pin, s.2.1.Has p := by
  obtain ⟨hrt, pin, hpin, b, hb, hq⟩ := hm
  obtain ⟨b', hb', hbp, _, hsh⟩ := shapeIn_box T route n (l, b) (hi.boxes pin hpin _ hb)
  obtain ⟨c, hc⟩ := cutTo_of ((hbp p).2 hq) hp
  refine ⟨pin, hpin, (l, b', c), ?_, (hbp p).2 hq⟩
  exact List.mem_filterMap.2 ⟨(l, b), hb, by rw [hsh, if_pos hrt, hc]; rfl⟩

theorem crossLocs_in {T : ApTech} (h : ∀ l, ∀ p ∈ T.pats l, 0 < p.2.spacing) (l : Int) (c : Box) :
    (∀ x ∈ (crossLocs T l c).1, c.left ≤ x ∧ x ≤ c.right) ∧ (∀ y ∈ (crossLocs T l c).2, c.bottom ≤ y ∧ y ≤ c.top) := by
  unfold crossLocs
  split <;> exact ⟨fun x hx => mem_trackLocs h hx, fun y hy => mem_trackLocs h hy⟩

theorem trackOrMid_in {initDR : Bool} {locs : List Int} {lo hi : Int} (h : ∀ x ∈ locs, lo ≤ x ∧ x ≤ hi) (hl : lo ≤ hi) :
    lo ≤ trackOrMid initDR locs lo hi ∧ trackOrMid initDR locs lo hi ≤ hi := by
  unfold trackOrMid
  split
  · exact h _ (by simp)
  · exact mid_le hl

theorem trackOrMid_init (locs : List Int) (lo hi : Int) : trackOrMid true locs lo hi = (lo + hi).tdiv 2 := by
  unfold trackOrMid
  split <;> simp_all

theorem mem_instTrackAp {T : ApTech} (h : ∀ l, ∀ p ∈ T.pats l, 0 < p.2.spacing) {route : Box} {initDR : Bool} {a : DrAp} :
    ∀ {ss : List (Int × Box × Box)}, a ∈ instTrackAp T route initDR ss →
      ∃ s ∈ ss, a = tempAp T s.1 a.pt ∧ s.2.2.Has a.pt ∧ (initDR = true → a.pt ≠ route.ur)
  | [], ha => by cases ha
  | (l, b, c) :: r, ha => by
    have hc := crossLocs_in h l c
    rw [instTrackAp] at ha
    revert ha
    split
    · rename_i x xs y ys he
      rw [he] at hc
      split
      · rename_i hcond
        intro ha
        rw [List.mem_singleton] at ha
        subst ha
        refine ⟨(l, b, c), by simp, rfl, ?_, ?_⟩
        · have h1 := hc.1 x (by simp)
          have h2 := hc.2 y (by simp)
          exact ⟨h1.1, h1.2, h2.1, h2.2⟩
        · intro hi he
          rcases hcond with hcond | hcond
          · rw [hi] at hcond; cases hcond
          · exact hcond.1 (congrArg Point.x he)
      · intro ha
        obtain ⟨s, hs, h1⟩ := mem_instTrackAp h ha
        exact ⟨s, by simp [hs], h1⟩
    · intro ha
      obtain ⟨s, hs, h1⟩ := mem_instTrackAp h ha
      exact ⟨s, by simp [hs], h1⟩

theorem mem_instMidAp {T : ApTech} (h : ∀ l, ∀ p ∈ T.pats l, 0 < p.2.spacing) {route : Box} {initDR : Bool} {a : DrAp} :
    ∀ {ss : List (Int × Box × Box)}, (∀ s ∈ ss, s.2.2.Proper) → a ∈ instMidAp T route initDR ss →
      ∃ s ∈ ss, a = tempAp T s.1 a.pt ∧ s.2.2.Has a.pt ∧ (initDR = true → a.pt ≠ route.ur)
  | [], _, ha => by cases ha
  | (l, b, c) :: r, hp, ha => by
    have hc := crossLocs_in h l c
    have hpc := hp (l, b, c) (by simp)
    rw [instMidAp] at ha
    revert ha
    split
    · rename_i hcond
      intro ha
      rw [List.mem_singleton] at ha
      subst ha
      refine ⟨(l, b, c), by simp, rfl, ?_, ?_⟩
      · have h1 := trackOrMid_in (initDR := initDR) hc.1 hpc.1
        have h2 := trackOrMid_in (initDR := initDR) hc.2 hpc.2
        exact ⟨h1.1, h1.2, h2.1, h2.2⟩
      · intro hi he
        rcases hcond with hcond | hcond | hcond
        · rw [hi] at hcond; cases hcond
        · exact hcond (congrArg Point.x he)
        · exact hcond (congrArg Point.y he)
    · intro ha
      obtain ⟨s, hs, h1⟩ := mem_instMidAp h (fun s hs => hp s (by simp [hs])) ha
      exact ⟨s, by simp [hs], h1⟩

/-- the part in the region is more than the upper right corner, or the corner counts -/
def NotCorner (route : Box) (initDR : Bool) (c : Box) : Prop := ∃ p, c.Has p ∧ (initDR = true → p ≠ route.ur)

theorem mid_corner {lo hi r : Int} (h0 : 0 ≤ lo) (h1 : lo ≤ hi) (h2 : hi ≤ r) (h : (lo + hi).tdiv 2 = r) : lo = r ∧ hi = r := by
  rw [Int.tdiv_eq_ediv_of_nonneg (by omega)] at h
  omega

theorem corner_only {route c : Box} {initDR : Bool} (h0 : 0 ≤ c.left) (h1 : 0 ≤ c.bottom) (hp : c.Proper)
    (hr : c.right ≤ route.right) (ht : c.top ≤ route.top) (hn : NotCorner route initDR c) (hi : initDR = true) :
    (c.left + c.right).tdiv 2 ≠ route.right ∨ (c.bottom + c.top).tdiv 2 ≠ route.top := by
  obtain ⟨p, hc, hne⟩ := hn
  by_cases hx : (c.left + c.right).tdiv 2 = route.right
  · right
    intro hy
    have a := mid_corner h0 hp.1 hr hx
    have b := mid_corner h1 hp.2 ht hy
    apply hne hi
    have e1 : p.x = route.right := by simp only [Box.Has] at hc; omega
    have e2 : p.y = route.top := by simp only [Box.Has] at hc; omega
    obtain ⟨px, py⟩ := p
    simp only at e1 e2
    rw [e1, e2]
  · exact Or.inl hx

theorem instMidAp_ne {T : ApTech} {route : Box} {initDR : Bool} {s : Int × Box × Box} :
    ∀ {ss : List (Int × Box × Box)}, s ∈ ss → 0 ≤ s.2.2.left → 0 ≤ s.2.2.bottom → s.2.2.Proper → s.2.2.right ≤ route.right →
      s.2.2.top ≤ route.top → NotCorner route initDR s.2.2 → instMidAp T route initDR ss ≠ []
  | [], hm, _, _, _, _, _, _ => by cases hm
  | (l, b, c) :: r, hm, h0, h1, hp, hr, ht, hn => by
    rw [instMidAp]
    rcases List.mem_cons.1 hm with rfl | hm
    · rw [if_pos]
      · simp
      · cases hi : initDR with
        | false => exact Or.inl rfl
        | true =>
          rw [trackOrMid_init, trackOrMid_init]
          exact Or.inr (corner_only h0 h1 hp hr ht hn hi)
    · split
      · simp
      · exact instMidAp_ne hm h0 h1 hp hr ht hn

theorem termMidAp_ne {T : ApTech} {route : Box} {initDR : Bool} {s : Int × Box × Box} :
    ∀ {ss : List (Int × Box × Box)}, s ∈ ss → 0 ≤ s.2.2.left → 0 ≤ s.2.2.bottom → s.2.2.Proper → s.2.2.right ≤ route.right →
      s.2.2.top ≤ route.top → NotCorner route initDR s.2.2 → termMidAp T route initDR ss ≠ []
  | [], hm, _, _, _, _, _, _ => by cases hm
  | (l, b, c) :: r, hm, h0, h1, hp, hr, ht, hn => by
    rw [termMidAp]
    rcases List.mem_cons.1 hm with rfl | hm
    · rw [if_pos]
      · simp
      · cases hi : initDR with
        | false => exact Or.inl rfl
        | true =>
          right
          unfold midIn
          split
          · left; omega
          · split
            · right; omega
            · exact corner_only h0 h1 hp hr ht hn hi
    · split
      · simp
      · exact termMidAp_ne hm h0 h1 hp hr ht hn

end TR
