import Verif.TaWork.Lemmas
import Verif.Cost.Planar
/-! The places that a shape blocks are those where a via, a wire or a cut would be too near to it. -/
namespace TR

theorem viaRun_is {grows : Bool} {b v : Box} {x t : Int} :
    TaRun grows b (v.at ⟨x, t⟩) (viaRun grows b v (max (cgapY b (v.at ⟨x, t⟩)) 0)) := by
  unfold TaRun viaRun
  rw [cgapY_eq]
  have hw : (v.at ⟨x, t⟩).right - (v.at ⟨x, t⟩).left = v.right - v.left := by unfold Box.at; simp only [Box.left, Box.right]; omega
  have hh : (v.at ⟨x, t⟩).top - (v.at ⟨x, t⟩).bottom = v.top - v.bottom := by unfold Box.at; simp only [Box.bottom, Box.top]; omega
  constructor
  · intro h
    rw [if_pos (by omega), hw]
  · intro h
    rw [if_neg (by omega), hh]

theorem taRun_unique {grows : Bool} {b v : Box} {r r' : Int} (h : TaRun grows b v r) (h' : TaRun grows b v r') : r = r' := by
  by_cases hs : sharedY b v < 0
  · rw [h.1 hs, h'.1 hs]
  · rw [h.2 (by omega), h'.2 (by omega)]

theorem viaRun_le (grows : Bool) (b v : Box) (d : Int) :
    viaRun grows b v d ≤ if grows then v.length else min b.length v.length := by
  unfold viaRun Box.length
  split <;> cases grows <;> simp only [Bool.false_eq_true, if_false, if_true] <;> omega

theorem line_track {h : Bool} {a1 a2 t x u : Int} (hh : (lineBox h a1 a2 t).Has (ptAC h x u)) : u = t := by
  unfold lineBox at hh
  rw [fr_has, fr_fr] at hh
  unfold Box.Has Box.mk4 at hh
  simp only [Box.left, Box.right, Box.bottom, Box.top] at hh
  rw [if_neg (Int.lt_irrefl t)] at hh
  omega

theorem viaTrack_iff {nan : Int} {h : Bool} {r : SpcRule} {w1 w2 : Int} {ps : Bool} {b v : Box} (hb : b.Proper) (hv : v.Proper)
    (hr : ∀ p, ∃ d, r.req w1 w2 p = some d ∧ 0 ≤ d) (x t u : Int) :
    InSome (viaTrack nan h r w1 w2 ps b v t) (ptAC h x u) ↔
      u = t ∧ ∃ run d, TaRun ps b (v.at ⟨x, t⟩) run ∧ r.req w1 w2 run = some d ∧ Closer b (v.at ⟨x, t⟩) d := by
  unfold viaTrack
  rw [transform_at hv]
  dsimp only
  rw [gapY_at b v b.left x t]
  obtain ⟨q, hq, hq0⟩ := hr (viaRun ps b v (max (cgapY b (v.at ⟨x, t⟩)) 0))
  rw [hq]
  dsimp only
  have hrest : (∃ run d, TaRun ps b (v.at ⟨x, t⟩) run ∧ r.req w1 w2 run = some d ∧ Closer b (v.at ⟨x, t⟩) d) ↔ Closer b (v.at ⟨x, t⟩) q := by
    constructor
    · rintro ⟨run, d, h1, h2, h3⟩
      rw [taRun_unique h1 viaRun_is, hq] at h2
      cases h2; exact h3
    · intro hc; exact ⟨_, q, viaRun_is, hq, hc⟩
  rw [hrest]
  split
  · rename_i hge
    constructor
    · rintro ⟨_, hm, _⟩; cases hm
    · rintro ⟨_, hc⟩
      have := (closer_gaps hb (at_proper hv _) hq0 hc).2
      by_cases h0 : q = 0
      · subst h0
        rw [← cdist2_closer hb (at_proper hv _)] at hc
        unfold cdist2 at hc
        have n1 := sq_nonneg (max (cgapX b (v.at ⟨x, t⟩)) 0)
        have n2 := sq_nonneg (max (cgapY b (v.at ⟨x, t⟩)) 0)
        omega
      · omega
  · rename_i hlt
    have hlt' : max (cgapY b (v.at ⟨x, t⟩)) 0 < q := by omega
    have hle : b.left - reachOf nan q (max (cgapY b (v.at ⟨x, t⟩)) 0) (max (cgapY b (v.at ⟨x, t⟩)) 0) - v.right ≤
        b.right + reachOf nan q (max (cgapY b (v.at ⟨x, t⟩)) 0) (max (cgapY b (v.at ⟨x, t⟩)) 0) - v.left := by
      have := reach_nonneg (nan := nan) (e := max (cgapY b (v.at ⟨x, t⟩)) 0) (show 0 ≤ max (cgapY b (v.at ⟨x, t⟩)) 0 by omega) hlt'
      unfold Box.Proper at hb hv
      omega
    have hbl := block_iff (nan := nan) hb hv x hlt' x
    constructor
    · rintro ⟨B, hB, hp⟩
      rw [List.mem_singleton] at hB
      subst hB
      rw [lineBox_has hle] at hp
      exact ⟨hp.2.2, hbl.1 ⟨hp.1, hp.2.1⟩⟩
    · rintro ⟨hu, hc⟩
      refine ⟨_, List.mem_singleton.2 rfl, (lineBox_has hle x u).2 ?_⟩
      obtain ⟨h1, h2⟩ := hbl.2 hc
      exact ⟨h1, h2, hu⟩

theorem inSome_flatMap {α : Type} {l : List α} {f : α → List Box} {p : Point} : InSome (l.flatMap f) p ↔ ∃ a ∈ l, InSome (f a) p := by
  unfold InSome
  constructor
  · rintro ⟨b, hb, hp⟩
    obtain ⟨a, ha, hb⟩ := List.mem_flatMap.1 hb
    exact ⟨a, ha, b, hb, hp⟩
  · rintro ⟨a, ha, b, hb, hp⟩
    exact ⟨b, List.mem_flatMap.2 ⟨a, ha, hb⟩, hp⟩

theorem follow_iff {P : PanelTech} {cut fl : Int} (hb : P.c.bottom ≤ cut) (ht : cut ≤ P.c.top) :
    followLayer P cut = some fl ↔ ViaTracks P cut fl := by
  unfold followLayer ViaTracks
  dsimp only
  split
  · rename_i h
    constructor
    · intro h'; cases h'
      exact .inl ⟨rfl, h.1, by omega, h.2.1, h.2.2⟩
    · rintro (h' | h')
      · rw [h'.1]
      · exact absurd ⟨h.1, by omega, h.2.1, h.2.2⟩ h'.2.2
  · rename_i hn
    split
    · rename_i h
      constructor
      · intro h'; cases h'
        exact .inr ⟨rfl, ⟨by omega, h.1, h.2.1, h.2.2⟩, fun h3 => hn ⟨h3.1, h3.2.2.1, h3.2.2.2⟩⟩
      · rintro (⟨h1, h2⟩ | ⟨h1, h2⟩)
        · subst h1; exact absurd ⟨h2.1, h2.2.2.1, h2.2.2.2⟩ hn
        · rw [h1]
    · rename_i hn2
      constructor
      · intro h'; cases h'
      · rintro (⟨h1, h2⟩ | ⟨h1, h2⟩)
        · subst h1; exact absurd ⟨h2.1, h2.2.2.1, h2.2.2.2⟩ hn
        · subst h1; exact absurd ⟨h2.1.2.1, h2.1.2.2.1, h2.1.2.2.2⟩ hn2

theorem at_width (b : Box) (p : Point) : (b.at p).width = b.width := by
  unfold Box.at Box.width; simp only [Box.left, Box.right, Box.bottom, Box.top]; congr 1 <;> omega

theorem at_length (b : Box) (p : Point) : (b.at p).length = b.length := by
  unfold Box.at Box.length; simp only [Box.left, Box.right, Box.bottom, Box.top]; congr 1 <;> omega

/-- places of a track are blocked for vias exactly where the metal of the via would be too near to the shape -/
theorem viaBlocks_iff (P : PanelTech) (box : Box) (l : Int) (upper ps : Bool) (vd : MzVia) (fl : Int)
    (hlow : P.c.bottom ≤ l) (htop : l ≤ P.c.top) (hend : if upper = true then l < P.c.top else P.c.bottom < l)
    (hvd : P.c.via (if upper = true then l + 1 else l - 1) = some vd) (hfl : ViaTracks P (if upper = true then l + 1 else l - 1) fl)
    (hs : StrictInc (P.locs fl)) (hb : box.Proper) (hv : (if upper = true then vd.l1 else vd.l2).Proper)
    (hr : SpcTotal P l) (hm : SpcMono P.c l) (x t : Int) :
    InSome (viaBlocks P box l upper ps) (ptAC P.horz x t) ↔
      t ∈ P.locs fl ∧ TaNear P l ps box ((if upper = true then vd.l1 else vd.l2).at (ptAC P.horz x t)) := by
  have hbv : blockedVia P l upper = some (if upper = true then vd.l1 else vd.l2) := by
    unfold blockedVia
    cases upper
    · simp only [Bool.false_eq_true, if_false] at *; rw [if_pos hend, hvd]; rfl
    · simp only [if_true] at *; rw [if_pos hend, hvd]; rfl
  have hff : followLayer P (if upper = true then l + 1 else l - 1) = some fl := by
    refine (follow_iff ?_ ?_).2 hfl <;> cases upper <;> simp only [Bool.false_eq_true, if_false, if_true] at * <;> omega
  generalize (if upper = true then vd.l1 else vd.l2) = vb at *
  unfold viaBlocks
  rw [hbv, hff]
  unfold TaNear
  cases hsp : P.c.spc l with
  | none =>
    dsimp only
    constructor
    · rintro ⟨_, hm', _⟩; cases hm'
    · rintro ⟨_, r, _, _, h, _⟩; cases h
  | some r =>
    dsimp only
    obtain ⟨bd, hbd, hbd0⟩ := hr r hsp box.width vb.width (if ps = true then vb.length else min box.length vb.length)
    rw [hbd]
    dsimp only
    rw [inSome_flatMap]
    have hfb := fr_proper P.horz hb
    have hfv := fr_proper P.horz hv
    have hreq := fun p => hr r hsp box.width vb.width p
    have key : ∀ u, InSome (viaTrack P.nan P.horz r box.width vb.width ps (box.fr P.horz) (vb.fr P.horz) u) (ptAC P.horz x t) ↔
        t = u ∧ ∃ run d, TaRun ps (box.fr P.horz) ((vb.fr P.horz).at ⟨x, u⟩) run ∧ r.req box.width vb.width run = some d ∧
          Closer (box.fr P.horz) ((vb.fr P.horz).at ⟨x, u⟩) d :=
      fun u => viaTrack_iff hfb hfv hreq x u t
    constructor
    · rintro ⟨u, hu, hin⟩
      obtain ⟨rfl, run, d, h1, h2, h3⟩ := (key u).1 hin
      refine ⟨((mem_tracksIn hs _ _ _).1 hu).1, r, run, d, rfl, ?_, ?_, ?_⟩
      · rw [fr_at]; exact h1
      · rw [at_width]; exact h2
      · rw [← fr_closer P.horz, fr_at]; exact h3
    · rintro ⟨ht, r', run, d, hr', h1, h2, h3⟩
      cases hr'
      rw [fr_at] at h1
      rw [at_width] at h2
      rw [← fr_closer P.horz, fr_at] at h3
      have hd0 : 0 ≤ d := by
        obtain ⟨d', hd', h0⟩ := hreq run
        rw [h2] at hd'; cases hd'; exact h0
      have hle : d ≤ bd := by
        have hrun : run = viaRun ps (box.fr P.horz) (vb.fr P.horz) (max (cgapY (box.fr P.horz) ((vb.fr P.horz).at ⟨x, t⟩)) 0) :=
          taRun_unique h1 viaRun_is
        have hrl := viaRun_le ps (box.fr P.horz) (vb.fr P.horz) (max (cgapY (box.fr P.horz) ((vb.fr P.horz).at ⟨x, t⟩)) 0)
        rw [← hrun, fr_length, fr_length] at hrl
        exact hm r hsp _ _ _ _ _ _ hrl h2 hbd
      have hg := (closer_gaps hfb (at_proper hfv _) hd0 h3).2
      refine ⟨t, (mem_tracksIn hs _ _ _).2 ⟨ht, ?_, ?_⟩, (key t).2 ⟨rfl, run, d, h1, h2, h3⟩⟩
      · unfold cgapY Box.at at hg; simp only [Box.left, Box.right, Box.bottom, Box.top] at hg ⊢; omega
      · unfold cgapY Box.at at hg; simp only [Box.left, Box.right, Box.bottom, Box.top] at hg ⊢; omega

/-! ### wires -/

theorem fr_wireSq (h : Bool) (x t hw : Int) : (wireSq (ptAC h x t) hw).fr h = wireSq ⟨x, t⟩ hw := by cases h <;> rfl

theorem wireSq_at (x t hw : Int) : wireSq ⟨x, t⟩ hw = (⟨⟨-hw, -hw⟩, ⟨hw, hw⟩⟩ : Box).at ⟨x, t⟩ := by
  unfold wireSq Box.at
  simp only [Box.left, Box.right, Box.bottom, Box.top, Box.mk.injEq, Point.mk.injEq]
  omega

theorem planarLoop_track {nan bd hw : Int} {h : Bool} {b : Box} {x t : Int} : ∀ {ts : List Int} {b2 : Box},
    InSome (planarLoop nan bd hw h b b2 ts) (ptAC h x t) → t ∈ ts := by
  intro ts
  induction ts with
  | nil => rintro b2 ⟨_, hm, _⟩; cases hm
  | cons u us ih =>
    rintro b2 ⟨B, hB, hp⟩
    unfold planarLoop at hB
    rcases List.mem_cons.1 hB with rfl | hB
    · rw [line_track hp]; exact List.mem_cons_self
    · exact List.mem_cons_of_mem _ (ih ⟨B, hB, hp⟩)

theorem upFrom_inc (a b : Int) : (upFrom a b).Pairwise (· < ·) := by
  unfold upFrom
  rw [List.pairwise_map]
  refine List.Pairwise.imp ?_ (List.pairwise_lt_range)
  intro i j hij; omega

/-- the tracks of a range come in increasing order -/
theorem tracksIn_inc {locs : List Int} (hs : StrictInc locs) (lo hi : Int) : (tracksIn locs lo hi).Pairwise (· < ·) := by
  unfold tracksIn
  dsimp only
  rw [List.pairwise_map]
  have hub : (upperBound locs hi : Int) - 1 < locs.length := by
    have := (upperBound_spec hs.le hi).1
    omega
  refine List.Pairwise.imp_of_mem ?_ (upFrom_inc _ _)
  intro i j hi' hj' hij
  rw [mem_upFrom] at hi' hj'
  have h0 : 0 ≤ i := by
    have : (0 : Int) ≤ (taTrackIdx locs lo hi).1 := by unfold taTrackIdx; exact Int.natCast_nonneg _
    omega
  have hlt : j.toNat < locs.length := by unfold taTrackIdx at hj'; simp only at hj'; omega
  rw [getD_at hlt, getD_at (show i.toNat < locs.length by omega)]
  unfold StrictInc at hs
  exact List.pairwise_iff_getElem.1 hs _ _ _ _ (by omega)

/-- on the lowest of the tracks within reach, and on those out of reach, the blocked places are those where a wire would be too near -/
theorem planarBlocks_iff (P : PanelTech) (box : Box) (l : Int) (r : SpcRule) (d : Int)
    (hsp : P.c.spc l = some r) (hd : r.req box.width (P.c.width l) box.length = some d) (hd0 : 0 < d) (hw : 0 ≤ P.c.width l)
    (hs : StrictInc (P.locs l)) (hb : box.Proper) (x t : Int) (ht : t ∈ P.locs l)
    (hfirst : (∀ u ∈ P.locs l, u < t → ∀ y, ¬ Closer box (wireSq (ptAC P.horz y u) (P.c.width l / 2)) d) ∨
      ∀ y, ¬ Closer box (wireSq (ptAC P.horz y t) (P.c.width l / 2)) d) :
    InSome (planarBlocks P box l) (ptAC P.horz x t) ↔ Closer box (wireSq (ptAC P.horz x t) (P.c.width l / 2)) d := by
  unfold planarBlocks
  rw [hsp]
  simp only [Option.bind_some]
  rw [hd]
  dsimp only
  have hfb := fr_proper P.horz hb
  generalize hhw : P.c.width l / 2 = w at *
  have hw0 : 0 ≤ w := by omega
  have hsq : (⟨⟨-w, -w⟩, ⟨w, w⟩⟩ : Box).Proper := by unfold Box.Proper; simp only [Box.left, Box.right, Box.bottom, Box.top]; omega
  have hcl : ∀ y u, Closer box (wireSq (ptAC P.horz y u) w) d ↔ Closer (box.fr P.horz) ((⟨⟨-w, -w⟩, ⟨w, w⟩⟩ : Box).at ⟨y, u⟩) d := by
    intro y u; rw [← fr_closer P.horz, fr_wireSq, wireSq_at]
  -- a track is in the range iff a wire on it can be too near
  have hrange : ∀ u ∈ P.locs l, (u ∈ tracksIn (P.locs l) ((box.fr P.horz).bottom - d - w + 1) ((box.fr P.horz).top + d + w - 1) ↔
      ∃ y, Closer box (wireSq (ptAC P.horz y u) w) d) := by
    intro u hu
    rw [mem_tracksIn hs]
    constructor
    · rintro ⟨_, h1, h2⟩
      refine ⟨(box.fr P.horz).left, (hcl _ _).2 ?_⟩
      rw [← cdist2_closer hfb (at_proper hsq _)]
      unfold cdist2
      have e1 : max (cgapX (box.fr P.horz) ((⟨⟨-w, -w⟩, ⟨w, w⟩⟩ : Box).at ⟨(box.fr P.horz).left, u⟩)) 0 = 0 := by
        unfold cgapX Box.at; unfold Box.Proper at hfb; simp only [Box.left, Box.right, Box.bottom, Box.top] at *; omega
      rw [e1]
      have h3 : max (cgapY (box.fr P.horz) ((⟨⟨-w, -w⟩, ⟨w, w⟩⟩ : Box).at ⟨(box.fr P.horz).left, u⟩)) 0 < d := by
        unfold cgapY Box.at; unfold Box.Proper at hfb; simp only [Box.left, Box.right, Box.bottom, Box.top] at *; omega
      have := sq_lt (by omega) h3
      omega
    · rintro ⟨y, hc⟩
      have hg := (closer_gaps hfb (at_proper hsq _) (by omega) ((hcl _ _).1 hc)).2
      refine ⟨hu, ?_, ?_⟩
      · unfold cgapY Box.at at hg; simp only [Box.left, Box.right, Box.bottom, Box.top] at hg ⊢; omega
      · unfold cgapY Box.at at hg; simp only [Box.left, Box.right, Box.bottom, Box.top] at hg ⊢; omega
  have hinc := tracksIn_inc hs ((box.fr P.horz).bottom - d - w + 1) ((box.fr P.horz).top + d + w - 1)
  have hsub : ∀ u ∈ tracksIn (P.locs l) ((box.fr P.horz).bottom - d - w + 1) ((box.fr P.horz).top + d + w - 1), u ∈ P.locs l :=
    fun u hu => ((mem_tracksIn hs _ _ _).1 hu).1
  have htr := hrange t ht
  by_cases hin : t ∈ tracksIn (P.locs l) ((box.fr P.horz).bottom - d - w + 1) ((box.fr P.horz).top + d + w - 1)
  · -- it is the first track of the list
    have hlow : ∀ u ∈ P.locs l, u < t → ∀ y, ¬ Closer box (wireSq (ptAC P.horz y u) w) d := by
      rcases hfirst with h | h
      · exact h
      · obtain ⟨y, hy⟩ := htr.1 hin; exact absurd hy (h y)
    generalize htl : tracksIn (P.locs l) ((box.fr P.horz).bottom - d - w + 1) ((box.fr P.horz).top + d + w - 1) = T at *
    cases T with
    | nil => cases hin
    | cons u us =>
      have hut : u = t := by
        rcases List.mem_cons.1 hin with rfl | hm
        · rfl
        · have hlt := (List.pairwise_cons.1 hinc).1 t hm
          have hu := hsub u List.mem_cons_self
          obtain ⟨y, hy⟩ := (hrange u hu).1 List.mem_cons_self
          exact absurd hy (hlow u hu hlt y)
      subst hut
      unfold planarLoop
      rw [transform_at hsq]
      dsimp only
      have hq : max (cgapY (box.fr P.horz) ((⟨⟨-w, -w⟩, ⟨w, w⟩⟩ : Box).at ⟨(box.fr P.horz).left, u⟩)) 0 < d := by
        obtain ⟨y, hy⟩ := htr.1 hin
        have := (closer_gaps hfb (at_proper hsq _) (by omega) ((hcl _ _).1 hy)).2
        rw [gapY_at _ _ y (box.fr P.horz).left] at this
        omega
      have hbl := block_iff (nan := P.nan) hfb hsq (box.fr P.horz).left hq x
      have hrn := reach_nonneg (nan := P.nan) (e := max (cgapY (box.fr P.horz) ((⟨⟨-w, -w⟩, ⟨w, w⟩⟩ : Box).at ⟨(box.fr P.horz).left, u⟩)) 0)
        (show 0 ≤ max (cgapY (box.fr P.horz) ((⟨⟨-w, -w⟩, ⟨w, w⟩⟩ : Box).at ⟨(box.fr P.horz).left, u⟩)) 0 by omega) hq
      rw [hcl]
      rw [← hbl]
      generalize reachOf P.nan d (max (cgapY (box.fr P.horz) ((⟨⟨-w, -w⟩, ⟨w, w⟩⟩ : Box).at ⟨(box.fr P.horz).left, u⟩)) 0)
        (max (cgapY (box.fr P.horz) ((⟨⟨-w, -w⟩, ⟨w, w⟩⟩ : Box).at ⟨(box.fr P.horz).left, u⟩)) 0) = X at *
      have hle : (box.fr P.horz).left - X - w ≤ (box.fr P.horz).right + X + w := by unfold Box.Proper at hfb; omega
      constructor
      · rintro ⟨B, hB, hp⟩
        rcases List.mem_cons.1 hB with rfl | hB
        · rw [lineBox_has hle] at hp
          simp only [Box.left, Box.right] at hp ⊢
          omega
        · have hm := planarLoop_track ⟨B, hB, hp⟩
          have := (List.pairwise_cons.1 hinc).1 _ hm
          omega
      · rintro ⟨h1, h2⟩
        refine ⟨_, List.mem_cons_self, (lineBox_has hle x u).2 ⟨?_, ?_, rfl⟩⟩
        · simp only [Box.left, Box.right] at h1 ⊢; omega
        · simp only [Box.left, Box.right] at h2 ⊢; omega
  · constructor
    · intro hc
      exact absurd (planarLoop_track hc) hin
    · intro hc
      exact absurd (htr.2 ⟨x, hc⟩) hin

end TR
