import Verif.Read.Accept
import Verif.Geom.Props
namespace TR

theorem transform_valid (b : Box) (t : Xform) : (b.transform t).Valid := by
  simp only [Box.transform, Box.Valid, Box.mk4_eq, Box.left, Box.right, Box.bottom, Box.top]
  constructor <;> omega

theorem mk4_isValid (a b c d : Int) : (Box.mk4 a b c d).Valid := by
  simp only [Box.Valid, Box.mk4_eq, Box.left, Box.right, Box.bottom, Box.top]
  constructor <;> omega

theorem viaNamed_iff (vias : List RViaDef) (n : String) (d : RViaDef) : viaNamed vias n = some d ↔ ViaDefIs vias n d := by
  unfold viaNamed ViaDefIs
  rw [Option.bind_eq_some_iff]
  simp only [lastIdx_some RViaDef.name vias n]

theorem half_up (s o : Int) (h : 0 ≤ s) :
    0 ≤ 2 * ((-s).tdiv 2 + o) + s - 2 * o ∧ 2 * ((-s).tdiv 2 + o) + s - 2 * o ≤ 1 := by
  rw [Int.neg_tdiv, Int.tdiv_eq_ediv_of_nonneg h]; omega

theorem genSpan_eq (g : ViaGen) (h : 1 ≤ g.rows) : genSpan g = ⟨cutsWidth g, cutsHeight g⟩ := by
  unfold genSpan cutsWidth cutsHeight
  rw [if_neg (by omega)]
  simp only [Point.mk.injEq]
  constructor
  · rw [Int.mul_add, Int.sub_mul]; omega
  · rw [Int.mul_add, Int.sub_mul]; omega

theorem mem_genCuts (g : ViaGen) (h1 : 0 ≤ g.size.x) (h2 : 0 ≤ g.size.y) (q : Box) :
    q ∈ genCuts g ↔ ∃ i j, i < g.rows ∧ j < g.cols ∧ q = cutPlace g ⟨0, 0⟩ i j := by
  unfold genCuts cutPlace
  simp only [List.mem_flatMap, List.mem_map, List.mem_range]
  constructor
  · rintro ⟨i, hi, j, hj, rfl⟩
    refine ⟨i, j, hi, hj, ?_⟩
    rw [Box.mk4_eq]
    simp only [Box.mk.injEq, Point.mk.injEq]
    refine ⟨⟨?_, ?_⟩, ?_, ?_⟩ <;> omega
  · rintro ⟨i, j, hi, hj, rfl⟩
    refine ⟨i, hi, j, hj, ?_⟩
    rw [Box.mk4_eq]
    simp only [Box.mk.injEq, Point.mk.injEq]
    refine ⟨⟨?_, ?_⟩, ?_, ?_⟩ <;> omega

theorem cutPlace_move (g : ViaGen) (o : Point) (i j : Nat) (h1 : 0 ≤ g.size.x) (h2 : 0 ≤ g.size.y) :
    (cutPlace g ⟨0, 0⟩ i j).transform ⟨o.x, o.y, .R0⟩ = cutPlace g o i j := by
  unfold cutPlace Box.transform
  simp only [Point.transform, Box.mk4_eq, Box.mk.injEq, Point.mk.injEq]
  refine ⟨⟨?_, ?_⟩, ?_, ?_⟩ <;> omega

theorem cuts_nonneg (n : Nat) (a b : Int) (h : 1 ≤ n) (ha : 0 ≤ a) (hb : 0 ≤ b) : 0 ≤ (n : Int) * a + ((n : Int) - 1) * b := by
  have h1 : 0 ≤ (n : Int) * a := Int.mul_nonneg (by omega) ha
  have h2 : 0 ≤ ((n : Int) - 1) * b := Int.mul_nonneg (by omega) hb
  omega

theorem ruleVia_is (E : REnv) (n : String) (g : ViaGen) (d : RViaDef) (hs : g.Sane) (h : ruleVia E n g = some d) :
    GenViaIs E g d := by
  obtain ⟨r1, c1, sx, sy, px, py, bx, byy, tx, ty⟩ := hs
  simp only [ruleVia, Option.bind_eq_some_iff, Option.map_eq_some_iff] at h
  obtain ⟨c, hc, b, hb, t, ht, rfl⟩ := h
  rw [genSpan_eq g r1]
  have wx : 0 ≤ cutsWidth g := cuts_nonneg _ _ _ c1 sx px
  have wy : 0 ≤ cutsHeight g := cuts_nonneg _ _ _ r1 sy py
  refine ⟨b, c, t, ⟨(-cutsWidth g).tdiv 2 + g.org.x, (-cutsHeight g).tdiv 2 + g.org.y⟩, hb, hc, ht,
    half_up _ _ wx, half_up _ _ wy, ?_, ?_, ?_⟩
  · intro l q
    simp only [List.mem_map, mem_genCuts g sx sy, Prod.mk.injEq]
    constructor
    · rintro ⟨_, ⟨i, j, hi, hj, rfl⟩, rfl, rfl⟩
      exact ⟨rfl, i, j, hi, hj, cutPlace_move g ⟨_, _⟩ i j sx sy⟩
    · rintro ⟨rfl, i, j, hi, hj, rfl⟩
      exact ⟨_, ⟨i, j, hi, hj, rfl⟩, rfl, cutPlace_move g ⟨_, _⟩ i j sx sy⟩
  · simp only [Box.transform, Point.transform, Box.mk4_eq, List.cons.injEq, Prod.mk.injEq, Box.mk.injEq, Point.mk.injEq,
      and_true, true_and]
    refine ⟨⟨?_, ?_⟩, ?_, ?_⟩ <;> omega
  · simp only [Box.transform, Point.transform, Box.mk4_eq, List.cons.injEq, Prod.mk.injEq, Box.mk.injEq, Point.mk.injEq,
      and_true, true_and]
    refine ⟨⟨?_, ?_⟩, ?_, ?_⟩ <;> omega

theorem rectVia_is (E : REnv) (n : String) (rs : List (String × Int × Int × Int × Int)) (xs : List (Int × Box))
    (d : RViaDef) (hx : viaRects E rs = some xs) (h : rectVia n xs = some d) : RectViaIs E rs d := by
  obtain ⟨_, h2⟩ := viaRects_some E _ _ hx
  obtain ⟨a, _, rfl⟩ := (rectVia_iff _ _ _).1 h
  refine ⟨a, ?_⟩
  intro l b
  have key : ∀ m : Int, (l, b) ∈ xs.filter (fun r => r.1 = m) ↔
      l = m ∧ ∃ r ∈ rs, E.layerNum r.1 = some m ∧ b = Box.mk4 r.2.1 r.2.2.1 r.2.2.2.1 r.2.2.2.2 := by
    intro m
    rw [List.mem_filter, h2]
    simp only [decide_eq_true_eq]
    constructor
    · rintro ⟨h, rfl⟩; exact ⟨rfl, h⟩
    · rintro ⟨rfl, h⟩; exact ⟨h, rfl⟩
  exact ⟨key a, key (a + 1), key (a + 2)⟩

theorem rectVia_one {n : String} {xs : List (Int × Box)} {d : RViaDef} (h : rectVia n xs = some d) : d.OneLayer := by
  obtain ⟨a, _, rfl⟩ := (rectVia_iff _ _ _).1 h
  refine ⟨?_, ?_, ?_⟩ <;>
    (intro r hr s hs
     simp only [List.mem_filter, decide_eq_true_eq] at hr hs
     rw [hr.2, hs.2])

theorem ruleVia_one {E : REnv} {n : String} {g : ViaGen} {d : RViaDef} (h : ruleVia E n g = some d) :
    d.OneLayer ∧ d.name = n := by
  simp only [ruleVia, Option.bind_eq_some_iff, Option.map_eq_some_iff] at h
  obtain ⟨c, hc, b, hb, t, ht, rfl⟩ := h
  refine ⟨⟨?_, ?_, ?_⟩, rfl⟩
  · intro r hr s hs; simp only [List.mem_singleton] at hr hs; rw [hr, hs]
  · intro r hr s hs
    simp only [List.mem_map] at hr hs
    obtain ⟨_, _, rfl⟩ := hr
    obtain ⟨_, _, rfl⟩ := hs
    rfl
  · intro r hr s hs; simp only [List.mem_singleton] at hr hs; rw [hr, hs]

theorem rectVia_name {n : String} {xs : List (Int × Box)} {d : RViaDef} (h : rectVia n xs = some d) : d.name = n := by
  obtain ⟨a, _, rfl⟩ := (rectVia_iff _ _ _).1 h; rfl

/-- the via definitions: those given first, then one for every via of the file that is not skipped -/
def ViasAre (E : REnv) : List DefVia → List RViaDef → Prop
  | [], ds => ds = []
  | v :: vs, ds => (ViaSkipped E v ∧ ViasAre E vs ds) ∨
      (¬ ViaSkipped E v ∧ ∃ d r, ds = d :: r ∧ ViaIs E v d ∧ d.OneLayer ∧ ViasAre E vs r)

def viasOf (rs : List DefRec) : List DefVia := rs.filterMap (fun | .via v => some v | _ => none)

theorem viasAre_snoc (E : REnv) (vs : List DefVia) (ds : List RViaDef) (v : DefVia) (h : ViasAre E vs ds) :
    (ViaSkipped E v → ViasAre E (vs ++ [v]) ds) ∧
    (∀ d, ¬ ViaSkipped E v → ViaIs E v d → d.OneLayer → ViasAre E (vs ++ [v]) (ds ++ [d])) := by
  induction vs generalizing ds with
  | nil =>
    simp only [ViasAre] at h
    subst h
    exact ⟨fun hs => Or.inl ⟨hs, rfl⟩, fun d hn hi ho => Or.inr ⟨hn, d, [], rfl, hi, ho, rfl⟩⟩
  | cons w vs ih =>
    rcases h with ⟨hw, h⟩ | ⟨hw, d0, r, rfl, h1, h2, h3⟩
    · exact ⟨fun hs => Or.inl ⟨hw, (ih ds h).1 hs⟩, fun d hn hi ho => Or.inl ⟨hw, (ih ds h).2 d hn hi ho⟩⟩
    · exact ⟨fun hs => Or.inr ⟨hw, d0, r, rfl, h1, h2, (ih r h3).1 hs⟩,
        fun d hn hi ho => Or.inr ⟨hw, d0, r ++ [d], rfl, h1, h2, (ih r h3).2 d hn hi ho⟩⟩

theorem viasOf_snoc (pre : List DefRec) (r : DefRec) :
    viasOf (pre ++ [r]) = viasOf pre ++ (match r with | .via c => [c] | _ => []) := by
  unfold viasOf; rw [List.filterMap_append]; cases r <;> rfl

theorem readVias (E : REnv) (lv : List RViaDef) (pre : List DefRec) (r : DefRec) (B B' : RBlock)
    (h : ∃ ds, B.vias = lv ++ ds ∧ ViasAre E (viasOf pre) ds) (hr : readRec E B r = some B') :
    ∃ ds, B'.vias = lv ++ ds ∧ ViasAre E (viasOf (pre ++ [r])) ds := by
  obtain ⟨ds, he, hv⟩ := h
  have other : (∀ d, r ≠ .via d) → B'.vias = B.vias → ∃ ds, B'.vias = lv ++ ds ∧ ViasAre E (viasOf (pre ++ [r])) ds := by
    intro a e
    refine ⟨ds, by rw [e, he], ?_⟩
    rw [viasOf_snoc]; cases r <;> simp_all
  cases r with
  | via v =>
    rw [viasOf_snoc]
    simp only [readRec, readVia] at hr
    split at hr
    · rename_i g hg
      simp only [Option.map_eq_some_iff] at hr
      obtain ⟨d, hd, rfl⟩ := hr
      refine ⟨ds ++ [d], by simp [he], (viasAre_snoc E _ _ v hv).2 d ?_ ?_ (ruleVia_one hd).1⟩
      · rintro ⟨hn, _⟩; rw [hg] at hn; cases hn
      · refine ⟨(ruleVia_one hd).2, ?_⟩
        rw [hg]; exact fun hs => ruleVia_is E _ g d hs hd
    · rename_i hg
      split at hr
      · cases hr
      · split at hr
        · rename_i hx
          simp only [Option.some.injEq] at hr; subst hr
          exact ⟨ds, he, (viasAre_snoc E _ _ v hv).1 ⟨hg, viaRects_none E _ hx⟩⟩
        · rename_i xs hx
          simp only [Option.map_eq_some_iff] at hr
          obtain ⟨d, hd, rfl⟩ := hr
          refine ⟨ds ++ [d], by simp [he], (viasAre_snoc E _ _ v hv).2 d ?_ ?_ (rectVia_one hd)⟩
          · rintro ⟨_, q, hq, hn⟩
            obtain ⟨l, hl⟩ := (viaRects_some E _ _ hx).1 q hq
            rw [hn] at hl; cases hl
          · refine ⟨rectVia_name hd, ?_⟩
            rw [hg]; exact rectVia_is E _ _ xs d hx hd
  | tracks t =>
    simp only [readRec, readTracks, Option.bind_eq_some_iff] at hr
    obtain ⟨l, hl, hr⟩ := hr
    split at hr
    · simp only [Option.some.injEq] at hr; subst hr; exact other (by intro d hd; cases hd) rfl
    · split at hr
      · simp only [Option.some.injEq] at hr; subst hr; exact other (by intro d hd; cases hd) rfl
      · cases hr
  | comp c =>
    simp only [readRec, readComp, Option.bind_eq_some_iff] at hr
    obtain ⟨cell, hc, hr⟩ := hr
    split at hr
    · cases hr
    · simp only [Option.some.injEq] at hr; subst hr; exact other (by intro d hd; cases hd) rfl
  | pin p =>
    simp only [readRec, readPin, Option.bind_eq_some_iff] at hr
    obtain ⟨u, hu, hr⟩ := hr
    split at hr
    · cases hr
    · simp only [Option.bind_eq_some_iff, Option.map_eq_some_iff] at hr
      obtain ⟨_, _, _, _, rfl⟩ := hr
      exact other (by intro d hd; cases hd) rfl
  | blk q =>
    simp only [readRec, Option.some.injEq] at hr
    subst hr
    refine other (by intro d hd; cases hd) ?_
    unfold readBlk; dsimp only; repeat' split
    all_goals rfl
  | net n =>
    simp only [readRec, readNet, Option.bind_eq_some_iff, Option.map_eq_some_iff] at hr
    obtain ⟨ps, hps, f, _, u, hu, rfl⟩ := hr
    exact other (by intro d hd; cases hd) rfl

theorem viasInv (E : REnv) (vs : List RViaDef) (rs : List DefRec) (B : RBlock) (h : readDesign E vs rs = some B) :
    ∃ ds, B.vias = vs ++ ds ∧ ViasAre E (viasOf rs) ds :=
  readRecs_inv E (P := fun pre B => ∃ ds, B.vias = vs ++ ds ∧ ViasAre E (viasOf pre) ds) _
    ⟨[], by simp, rfl⟩ (fun pre r B B' => readVias E vs pre r B B') rs B h

end TR
