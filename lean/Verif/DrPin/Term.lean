import Verif.DrPin.Lemmas
namespace TR

theorem centreLine_in {T : ApTech} {lo hi k k' : Int} (hg : 0 < T.manuGrid) (h1 : lo = k * T.manuGrid) (h2 : hi = k' * T.manuGrid)
    (h : lo ≤ hi) : lo ≤ centreLine T lo hi ∧ centreLine T lo hi ≤ hi := by
  have hm := mid_le h
  unfold centreLine
  generalize (lo + hi).tdiv 2 = m at hm ⊢
  generalize T.manuGrid = g at *
  rcases Int.le_total 0 m with h0 | h0
  · rw [Int.tdiv_eq_ediv_of_nonneg h0]
    have a := Int.ediv_mul_le m (by omega : g ≠ 0)
    have b : k ≤ m / g := Int.le_ediv_of_mul_le hg (by omega)
    have c := Int.mul_le_mul_of_nonneg_right b (by omega : 0 ≤ g)
    omega
  · have e : m.tdiv g = -((-m) / g) := by
      rw [← Int.tdiv_eq_ediv_of_nonneg (by omega : 0 ≤ -m), Int.neg_tdiv, Int.neg_neg]
    rw [e]
    have a := Int.ediv_mul_le (-m) (by omega : g ≠ 0)
    have b : -k' ≤ (-m) / g := Int.le_ediv_of_mul_le hg (by rw [Int.neg_mul]; omega)
    have c := Int.mul_le_mul_of_nonneg_right b (by omega : 0 ≤ g)
    rw [Int.neg_mul] at *
    omega

theorem insetBy_in {w lo hi v : Int} (hw : 0 ≤ w) (h : (insetBy w lo hi).1 ≤ v ∧ v ≤ (insetBy w lo hi).2) : lo ≤ v ∧ v ≤ hi := by
  unfold insetBy at h
  split at h <;> simp only at h <;> omega

/-- one of the two coordinates lies over the part in the region; both do, unless one is the centre line -/
theorem termLocs_in {T : ApTech} (h : ∀ l, ∀ p ∈ T.pats l, 0 < p.2.spacing) (hw : ∀ l, 0 ≤ T.width l) {route b c : Box} {l x y : Int}
    (hx : x ∈ (termLocs T route l b c).1) (hy : y ∈ (termLocs T route l b c).2) :
    (c.left ≤ x ∧ x ≤ c.right ∧ c.bottom ≤ y ∧ y ≤ c.top) ∨
    (c.left ≤ x ∧ x ≤ c.right ∧ y = centreLine T b.bottom b.top) ∨
    (c.bottom ≤ y ∧ y ≤ c.top ∧ x = centreLine T b.left b.right) := by
  unfold termLocs at hx hy
  dsimp only at hx hy
  by_cases h1 : b.top - b.bottom < b.right - b.left
  · rw [if_pos h1] at hx hy
    split at hx
    · rename_i h2
      rw [if_pos h2] at hy
      have := mem_trackLocs h hx
      rw [List.mem_singleton] at hy
      exact Or.inr (Or.inl ⟨this.1, this.2, hy⟩)
    · rename_i h2
      rw [if_neg h2] at hy
      have a := insetBy_in (hw l) (mem_trackLocs h hx)
      have d := mem_trackLocs h hy
      exact Or.inl ⟨a.1, a.2, d.1, d.2⟩
  · rw [if_neg h1] at hx hy
    split at hx
    · rename_i h2
      rw [if_pos h2] at hy
      have := mem_trackLocs h hy
      rw [List.mem_singleton] at hx
      exact Or.inr (Or.inr ⟨this.1, this.2, hx⟩)
    · rename_i h2
      rw [if_neg h2] at hy
      have a := mem_trackLocs h hx
      split at hy
      · have d := mem_trackLocs h hy
        have := hw l
        exact Or.inl ⟨a.1, a.2, by omega, by omega⟩
      · cases hy

/-- an access point along the longer side of the rectangle -/
def alongAp (T : ApTech) (l : Int) (b : Box) (p : Point) : DrAp :=
  let z := decide (b.top - b.bottom < b.right - b.left)
  ⟨l, p, 0, apArea T l, ⟨z, !z, z, !z, false, false⟩, none⟩

theorem mem_termRectAps {T : ApTech} {route b c : Box} {initDR : Bool} {l : Int} {a : DrAp}
    (ha : a ∈ termRectAps T route initDR l b c) :
    a = alongAp T l b a.pt ∧ a.pt.x ∈ (termLocs T route l b c).1 ∧ a.pt.y ∈ (termLocs T route l b c).2 ∧
    route.left ≤ a.pt.x ∧ a.pt.x < route.right ∧ route.bottom ≤ a.pt.y ∧ a.pt.y < route.top := by
  unfold termRectAps at ha
  dsimp only at ha
  obtain ⟨x, hx, ha⟩ := List.mem_flatMap.1 ha
  obtain ⟨y, hy, ha⟩ := List.mem_filterMap.1 ha
  split at ha
  · rename_i hc
    injection ha with ha
    subst ha
    exact ⟨rfl, hx, hy, hc.2⟩
  · cases ha

theorem mem_termTrackAps {T : ApTech} {route : Box} {initDR : Bool} {a : DrAp} :
    ∀ {ss : List (Int × Box × Box)}, a ∈ termTrackAps T route initDR ss →
      ∃ s ∈ ss, a ∈ termRectAps T route initDR s.1 s.2.1 s.2.2
  | [], ha => by cases ha
  | (l, b, c) :: r, ha => by
    rw [termTrackAps] at ha
    split at ha
    · exact ⟨(l, b, c), by simp, ha⟩
    · obtain ⟨s, hs, h⟩ := mem_termTrackAps ha
      exact ⟨s, by simp [hs], h⟩

/-- an access point open to all sides -/
def freeAp (T : ApTech) (l : Int) (p : Point) : DrAp := ⟨l, p, 0, apArea T l, ⟨true, true, true, true, true, true⟩, none⟩

theorem midIn_in {lo hi rlo rhi clo chi : Int} (h : clo ≤ chi) (h1 : lo ≤ hi) (hs : lo ≤ clo ∧ chi ≤ hi) (hr : rlo ≤ clo ∧ chi ≤ rhi) :
    rlo ≤ midIn lo hi rlo rhi clo chi ∧ midIn lo hi rlo rhi clo chi ≤ rhi ∧
    lo ≤ midIn lo hi rlo rhi clo chi ∧ midIn lo hi rlo rhi clo chi ≤ hi := by
  have a := mid_le h
  have b := mid_le h1
  unfold midIn
  split <;> omega

theorem mem_termMidAp {T : ApTech} {route : Box} {n : NetTerm} {initDR : Bool} {a : DrAp} :
    ∀ {ss : List (Int × Box × Box)}, (∀ s ∈ ss, CutOk T route n s) → a ∈ termMidAp T route initDR ss →
      ∃ s ∈ ss, a = freeAp T s.1 a.pt ∧ s.2.2.Has a.pt ∧ (initDR = true → a.pt ≠ route.ur)
  | [], _, ha => by cases ha
  | (l, b, c) :: r, hp, ha => by
    have hk := hp (l, b, c) (by simp)
    rw [termMidAp] at ha
    revert ha
    split
    · rename_i hcond
      intro ha
      rw [List.mem_singleton] at ha
      subst ha
      refine ⟨(l, b, c), by simp, rfl, ?_, ?_⟩
      · obtain ⟨s1, s2, s3, s4⟩ := hk.sub
        have h1 := midIn_in (rlo := route.left) (rhi := route.right) hk.proper.1 hk.bproper.1 ⟨s1, s2⟩ ⟨hk.left, hk.right⟩
        have h2 := midIn_in (rlo := route.bottom) (rhi := route.top) hk.proper.2 hk.bproper.2 ⟨s3, s4⟩ ⟨hk.bottom, hk.top⟩
        exact (hk.has _).2 ⟨⟨h1.2.2.1, h1.2.2.2, h2.2.2.1, h2.2.2.2⟩, ⟨h1.1, h1.2.1, h2.1, h2.2.1⟩⟩
      · intro hi he
        rcases hcond with hcond | hcond | hcond
        · rw [hi] at hcond; cases hcond
        · exact hcond (congrArg Point.x he)
        · exact hcond (congrArg Point.y he)
    · intro ha
      obtain ⟨s, hs, h1⟩ := mem_termMidAp (fun s hs => hp s (by simp [hs])) ha
      exact ⟨s, by simp [hs], h1⟩

/-- temporary points in the region -/
theorem mem_tempPin {T : ApTech} {route : Box} {n : NetTerm} {initDR : Bool} (hi : ApInput T n) (hr : route.Proper)
    {pin : TermPin} (hp : pin ∈ n.pins) {a : DrAp} (ha : a ∈ tempPin T route initDR (n.inst.map (·.upd)) pin) :
    (∃ s ∈ pinCuts T route n pin, a.layer = s.1 ∧ s.2.2.Has a.pt ∧ (initDR = true → a.pt ≠ route.ur) ∧
      ((∃ I, n.inst = some I) ∧ a = tempAp T s.1 a.pt ∨ n.inst = none ∧ a = freeAp T s.1 a.pt)) ∨
    (n.inst = none ∧ ∃ s ∈ pinCuts T route n pin, a ∈ termRectAps T route initDR s.1 s.2.1 s.2.2) := by
  have hok : ∀ s ∈ pinCuts T route n pin, CutOk T route n s := fun s hs => pinCuts_ok hi hr hp hs
  unfold tempPin at ha
  change a ∈ (match n.inst.map (·.upd) with
    | some _ => instTrackAp T route initDR (pinCuts T route n pin) ++ instMidAp T route initDR (pinCuts T route n pin)
    | none => if termTrackAps T route initDR (pinCuts T route n pin) ≠ [] then termTrackAps T route initDR (pinCuts T route n pin)
        else termMidAp T route initDR (pinCuts T route n pin)) at ha
  cases hn : n.inst with
  | some I =>
    rw [hn] at ha
    left
    rcases List.mem_append.1 ha with ha | ha
    · obtain ⟨s, hs, h1, h2, h3⟩ := mem_instTrackAp hi.spacing ha
      exact ⟨s, hs, by rw [h1]; rfl, h2, h3, Or.inl ⟨⟨I, rfl⟩, h1⟩⟩
    · obtain ⟨s, hs, h1, h2, h3⟩ := mem_instMidAp hi.spacing (fun s hs => (hok s hs).proper) ha
      exact ⟨s, hs, by rw [h1]; rfl, h2, h3, Or.inl ⟨⟨I, rfl⟩, h1⟩⟩
  | none =>
    rw [hn] at ha
    simp only [Option.map_none] at ha
    split at ha
    · right
      exact ⟨rfl, mem_termTrackAps ha⟩
    · left
      obtain ⟨s, hs, h1, h2, h3⟩ := mem_termMidAp hok ha
      exact ⟨s, hs, by rw [h1]; rfl, h2, h3, Or.inr ⟨rfl, h1⟩⟩

theorem tempPin_ne {T : ApTech} {route : Box} {n : NetTerm} {initDR : Bool} (hi : ApInput T n) (hr : route.Proper)
    (h0 : 0 ≤ route.left) (h1 : 0 ≤ route.bottom)
    {pin : TermPin} (hp : pin ∈ n.pins) {s : Int × Box × Box} (hs : s ∈ pinCuts T route n pin) (hn : NotCorner route initDR s.2.2) :
    tempPin T route initDR (n.inst.map (·.upd)) pin ≠ [] := by
  have hk := pinCuts_ok hi hr hp hs
  have a0 := Int.le_trans h0 hk.left
  have a1 := Int.le_trans h1 hk.bottom
  unfold tempPin
  change (match n.inst.map (·.upd) with
    | some _ => instTrackAp T route initDR (pinCuts T route n pin) ++ instMidAp T route initDR (pinCuts T route n pin)
    | none => if termTrackAps T route initDR (pinCuts T route n pin) ≠ [] then termTrackAps T route initDR (pinCuts T route n pin)
        else termMidAp T route initDR (pinCuts T route n pin)) ≠ []
  cases n.inst with
  | some I =>
    have := instMidAp_ne (T := T) hs a0 a1 hk.proper hk.right hk.top hn
    simp [this]
  | none =>
    simp only [Option.map_none]
    split
    · assumption
    · exact termMidAp_ne hs a0 a1 hk.proper hk.right hk.top hn

/-- C134 without the instance's own points -/
theorem tempAps_ne_iff {T : ApTech} {route : Box} {n : NetTerm} {initDR : Bool} (hi : ApInput T n) (hr : route.Proper)
    (h0 : 0 ≤ route.left) (h1 : 0 ≤ route.bottom) :
    tempAps T route initDR n ≠ [] ↔ n.InRegion T route initDR := by
  constructor
  · intro h
    obtain ⟨a, ha⟩ := List.exists_mem_of_ne_nil _ h
    obtain ⟨pin, hp, ha⟩ := List.mem_flatMap.1 ha
    rcases mem_tempPin hi hr hp ha with ⟨s, hs, _, hh, hne, _⟩ | ⟨_, s, hs, hrect⟩
    · have hk := pinCuts_ok hi hr hp hs
      have := (hk.has _).1 hh
      exact ⟨s.1, a.pt, hk.metal _ this.1, this.2, hne⟩
    · have hk := pinCuts_ok hi hr hp hs
      obtain ⟨_, hx, hy, b1, b2, b3, b4⟩ := mem_termRectAps hrect
      have hpr := hk.proper
      have use : ∀ p : Point, s.2.2.Has p → p ≠ route.ur → n.InRegion T route initDR := fun p hc hne =>
        ⟨s.1, p, hk.metal _ ((hk.has p).1 hc).1, ((hk.has p).1 hc).2, fun _ => hne⟩
      rcases termLocs_in hi.spacing hi.widths hx hy with h | h | h
      · exact use ⟨a.pt.x, s.2.2.bottom⟩ ⟨h.1, h.2.1, Int.le_refl _, hpr.2⟩
          (fun e => by have := congrArg Point.x e; simp only at this; simp only [Box.right] at b2; omega)
      · exact use ⟨a.pt.x, s.2.2.bottom⟩ ⟨h.1, h.2.1, Int.le_refl _, hpr.2⟩
          (fun e => by have := congrArg Point.x e; simp only at this; simp only [Box.right] at b2; omega)
      · exact use ⟨s.2.2.left, a.pt.y⟩ ⟨Int.le_refl _, hpr.1, h.1, h.2.1⟩
          (fun e => by have := congrArg Point.y e; simp only at this; simp only [Box.top] at b4; omega)
  · rintro ⟨l, p, hm, hp, hne⟩
    obtain ⟨pin, hpin, s, hs, hb⟩ := pinCuts_of hi hm hp
    have hk := pinCuts_ok hi hr hpin hs
    have := tempPin_ne hi hr h0 h1 hpin hs ⟨p, (hk.has p).2 ⟨hb, hp⟩, hne⟩
    intro he
    apply this
    exact List.flatMap_eq_nil_iff.1 he pin hpin

end TR
