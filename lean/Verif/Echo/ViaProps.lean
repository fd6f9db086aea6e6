import Verif.Echo.ViaSpec
import Verif.Echo.PinProps

namespace TR

/-! ## Vias -/

/-- a rectangle as options -/
def viaRectOpts (r : String × Int × Int × Int × Int × Int) : List (List EhTok) :=
  if r.2.1 = 0 then
    [[.kw .rect, .word r.1, .lp, .num r.2.2.1, .num r.2.2.2.1, .rp, .lp, .num r.2.2.2.2.1, .num r.2.2.2.2.2, .rp]]
  else
    [[.kw .rect, .word r.1], [.kw .mask, .num r.2.1,
      .lp, .num r.2.2.1, .num r.2.2.2.1, .rp, .lp, .num r.2.2.2.2.1, .num r.2.2.2.2.2, .rp]]

/-- a polygon as options -/
def viaPolyOpts (p : String × Int × List (Int × Int)) : List (List EhTok) :=
  if p.2.1 = 0 then [.kw .polygon :: .word p.1 :: p.2.2.flatMap (fun q => [.num q.1, .num q.2])]
  else [[.kw .polygon, .word p.1], .kw .mask :: .num p.2.1 :: p.2.2.flatMap (fun q => [.num q.1, .num q.2])]

/-- a rule as options -/
def viaGenOpts (g : EhGen) : List (List EhTok) :=
  [[.kw .viarule, .word g.rule], [.kw .cutsize, .num g.cutSize.1, .num g.cutSize.2],
    [.kw .layers, .word g.layers.1, .word g.layers.2.1, .word g.layers.2.2],
    [.kw .cutspacing, .num g.cutSpacing.1, .num g.cutSpacing.2],
    [.kw .enclosure, .num g.enclosure.1, .num g.enclosure.2.1, .num g.enclosure.2.2.1, .num g.enclosure.2.2.2]]
  ++ (if g.rowCol = (0, 0) then [] else [[.kw .rowcol, .num g.rowCol.1, .num g.rowCol.2]])
  ++ (if g.origin = (0, 0) then [] else [[.kw .origin, .num g.origin.1, .num g.origin.2]])
  ++ (if g.offset = (0, 0, 0, 0) then [] else
      [[.kw .offset, .num g.offset.1, .num g.offset.2.1, .num g.offset.2.2.1, .num g.offset.2.2.2]])
  ++ g.pattern.toList.flatMap (fun s => [[.kw .pattern, .word (ehQuote s)]])

theorem via_flat {α : Type} (l : List α) (f : α → List EhTok) (o : α → List (List EhTok))
    (h : ∀ x ∈ l, f x = (o x).flatMap (fun t => .plus :: t)) :
    l.flatMap f = (l.flatMap o).flatMap (fun t => .plus :: t) := by
  induction l with
  | nil => rfl
  | cons x l ih =>
      rw [List.flatMap_cons, List.flatMap_cons, List.flatMap_append, h x (by simp), ih (fun y hy => h y (by simp [hy]))]

theorem via_text (v : EhVia) : ehVia v = [.minus, .word v.name] ++
    ((v.rects.flatMap viaRectOpts ++ v.polys.flatMap viaPolyOpts
      ++ v.gen.toList.flatMap viaGenOpts).flatMap (fun t => .plus :: t) ++ [.semi]) := by
  unfold ehVia
  rw [via_flat v.rects ehViaRect viaRectOpts (by
      intro r _
      unfold ehViaRect viaRectOpts
      split <;> simp),
    via_flat v.polys ehViaPoly viaPolyOpts (by
      intro r _
      unfold ehViaPoly viaPolyOpts
      split <;> simp)]
  rw [via_flat v.gen.toList ehGen viaGenOpts (by
      intro g _
      unfold ehGen viaGenOpts
      simp only [List.flatMap_append, List.flatMap_cons, List.flatMap_nil]
      congr 1
      · congr 1
        · congr 1
          · congr 1
            split <;> simp
          · split <;> simp
        · split <;> simp
      · cases g.pattern <;> simp)]
  simp only [List.flatMap_append, List.append_assoc]

theorem via_split (v : EhVia) : ehSplit (ehVia v) = some ([.minus, .word v.name],
    v.rects.flatMap viaRectOpts ++ v.polys.flatMap viaPolyOpts ++ v.gen.toList.flatMap viaGenOpts) := by
  rw [via_text]
  refine ehSplit_stmt _ _ (by simp [EhPlainTok]) ?_
  intro o ho t ht
  rcases List.mem_append.1 ho with ho | ho
  · rcases List.mem_append.1 ho with ho | ho
    · obtain ⟨r, -, hr⟩ := List.mem_flatMap.1 ho
      unfold viaRectOpts at hr
      split at hr <;> simp at hr
      · subst hr; simp at ht; rcases ht with h | h | h | h | h | h | h | h | h | h <;> subst h <;> simp [EhPlainTok]
      · rcases hr with hr | hr <;> subst hr <;> simp at ht
        · rcases ht with h | h <;> subst h <;> simp [EhPlainTok]
        · rcases ht with h | h | h | h | h | h | h | h | h | h <;> subst h <;> simp [EhPlainTok]
    · obtain ⟨r, -, hr⟩ := List.mem_flatMap.1 ho
      unfold viaPolyOpts at hr
      split at hr <;> simp at hr
      · subst hr
        simp at ht
        rcases ht with h | h | ⟨a, b, -, h | h⟩ <;> subst h <;> simp [EhPlainTok]
      · rcases hr with hr | hr <;> subst hr <;> simp at ht
        · rcases ht with h | h <;> subst h <;> simp [EhPlainTok]
        · rcases ht with h | h | ⟨a, b, -, h | h⟩ <;> subst h <;> simp [EhPlainTok]
  · obtain ⟨g, -, ho⟩ := List.mem_flatMap.1 ho
    unfold viaGenOpts at ho
    simp only [List.mem_append] at ho
    rcases ho with (((ho | ho) | ho) | ho) | ho
    · simp at ho
      rcases ho with h | h | h | h | h <;> subst h <;> simp at ht
      · rcases ht with h | h <;> subst h <;> simp [EhPlainTok]
      · rcases ht with h | h | h <;> subst h <;> simp [EhPlainTok]
      · rcases ht with h | h | h | h <;> subst h <;> simp [EhPlainTok]
      · rcases ht with h | h | h <;> subst h <;> simp [EhPlainTok]
      · rcases ht with h | h | h | h | h <;> subst h <;> simp [EhPlainTok]
    · split at ho
      · cases ho
      · simp at ho; subst ho; simp at ht; rcases ht with h | h | h <;> subst h <;> simp [EhPlainTok]
    · split at ho
      · cases ho
      · simp at ho; subst ho; simp at ht; rcases ht with h | h | h <;> subst h <;> simp [EhPlainTok]
    · split at ho
      · cases ho
      · simp at ho; subst ho; simp at ht; rcases ht with h | h | h | h | h <;> subst h <;> simp [EhPlainTok]
    · obtain ⟨s, -, ho⟩ := List.mem_flatMap.1 ho
      simp at ho; subst ho; simp at ht; rcases ht with h | h <;> subst h <;> simp [EhPlainTok]

theorem viaRect_read (r : String × Int × Int × Int × Int × Int) (v : EhVia) (os : List (List EhTok)) :
    ehViaOpts v (viaRectOpts r ++ os) = ehViaOpts { v with rects := v.rects ++ [r] } os := by
  obtain ⟨l, m, a, b, c, d⟩ := r
  unfold viaRectOpts
  dsimp only
  split
  · rename_i h; subst h
    simp only [List.cons_append, List.nil_append]
    rw [ehViaOpts]
    · simp [ehBoxIn]
    · intro l' m' r' os' e1; simp at e1
  · simp only [List.cons_append, List.nil_append]
    rw [ehViaOpts]
    simp [ehBoxIn]

theorem viaRects_read : ∀ (rs : List (String × Int × Int × Int × Int × Int)) (v : EhVia) (os : List (List EhTok)),
    ehViaOpts v (rs.flatMap viaRectOpts ++ os) = ehViaOpts { v with rects := v.rects ++ rs } os
  | [], v, os => by simp
  | r :: rs, v, os => by
    rw [List.flatMap_cons, List.append_assoc, viaRect_read, viaRects_read rs]
    simp

theorem corners_bare (ps : List (Int × Int)) : ehCorners (ps.flatMap fun q => [.num q.1, .num q.2]) = none := by
  cases ps with
  | nil => rfl
  | cons p ps => simp [ehCorners, ehPtList]

theorem viaPoly_bad (p : String × Int × List (Int × Int)) (v : EhVia) (os : List (List EhTok)) (hp : p.2.2 ≠ []) :
    ehViaOpts v (viaPolyOpts p ++ os) = none := by
  obtain ⟨l, m, ps⟩ := p
  unfold viaPolyOpts
  dsimp only
  split
  · simp only [List.cons_append, List.nil_append]
    cases ps with
    | nil => exact absurd rfl hp
    | cons q ps =>
        rw [ehViaOpts]
        · rw [corners_bare]; rfl
        · intro l' m' r' os' e1; simp at e1
  · simp only [List.cons_append, List.nil_append]
    rw [ehViaOpts, corners_bare]; rfl

theorem viaGen_read (g : EhGen) (v : EhVia) :
    ehViaOpts v (viaGenOpts g) = some { v with gen := some { g with pattern := g.pattern.map ehQuote } } := by
  obtain ⟨n, cs, ls, sp, en, rc, og, os, pat⟩ := g
  unfold viaGenOpts
  simp only [List.cons_append, List.nil_append, List.append_assoc]
  rw [ehViaOpts]
  have h1 : ∀ (w : EhVia) (g : EhGen), w.gen = some g → ∀ rest,
      ehViaOpts w ((if rc = (0, 0) then [] else [[.kw .rowcol, .num rc.1, .num rc.2]]) ++ rest) =
      ehViaOpts { w with gen := some { g with rowCol := if rc = (0, 0) then g.rowCol else rc } } rest := by
    intro w g hw rest
    by_cases h : rc = (0, 0)
    · simp only [if_pos h, List.nil_append]
      congr 1
      cases w; simp_all
    · simp only [if_neg h, List.cons_append, List.nil_append]
      rw [ehViaOpts, hw]; rfl
  have h2 : ∀ (w : EhVia) (g : EhGen), w.gen = some g → ∀ rest,
      ehViaOpts w ((if og = (0, 0) then [] else [[.kw .origin, .num og.1, .num og.2]]) ++ rest) =
      ehViaOpts { w with gen := some { g with origin := if og = (0, 0) then g.origin else og } } rest := by
    intro w g hw rest
    by_cases h : og = (0, 0)
    · simp only [if_pos h, List.nil_append]
      congr 1
      cases w; simp_all
    · simp only [if_neg h, List.cons_append, List.nil_append]
      rw [ehViaOpts, hw]; rfl
  have h3 : ∀ (w : EhVia) (g : EhGen), w.gen = some g → ∀ rest,
      ehViaOpts w ((if os = (0, 0, 0, 0) then [] else
        [[.kw .offset, .num os.1, .num os.2.1, .num os.2.2.1, .num os.2.2.2]]) ++ rest) =
      ehViaOpts { w with gen := some { g with offset := if os = (0, 0, 0, 0) then g.offset else os } } rest := by
    intro w g hw rest
    by_cases h : os = (0, 0, 0, 0)
    · simp only [if_pos h, List.nil_append]
      congr 1
      cases w; simp_all
    · simp only [if_neg h, List.cons_append, List.nil_append]
      rw [ehViaOpts, hw]; rfl
  rw [h1 _ _ rfl, h2 _ _ rfl, h3 _ _ rfl]
  have e1 : (if rc = (0, 0) then (0, 0) else rc) = rc := by split <;> simp_all
  have e2 : (if og = (0, 0) then (0, 0) else og) = og := by split <;> simp_all
  have e3 : (if os = (0, 0, 0, 0) then (0, 0, 0, 0) else os) = os := by split <;> simp_all
  dsimp only
  rw [e1, e2, e3]
  cases pat with
  | none => simp [ehViaOpts]
  | some s => simp [ehViaOpts]

theorem via_readable (v : EhVia) (hv : v.Ok) : ehReadVia (ehVia v) = if v.polys = [] then some v.echoed else none := by
  unfold ehReadVia
  rw [via_split]
  obtain ⟨n, rs, ps, gen⟩ := v
  dsimp only [Option.bind_some]
  rw [List.append_assoc, viaRects_read]
  cases ps with
  | cons p ps =>
      rw [List.flatMap_cons, List.append_assoc, viaPoly_bad _ _ _ (hv p (by simp))]
      simp
  | nil =>
      cases gen with
      | none => simp [ehViaOpts, EhVia.echoed]
      | some g =>
          simp only [List.flatMap_nil, List.nil_append, Option.toList, List.flatMap_cons, List.append_nil]
          rw [viaGen_read]
          simp [EhVia.echoed]

/-- a via of the reference file can be read again exactly if it has no polygons; then everything it says is as it was but
its cut pattern, around which there is a pair of quotes -/
theorem c191_via_partial (v : EhVia) (hv : v.Ok) :
    ehReadVia (ehVia v) = if v.polys = [] then some v.echoed else none :=
  via_readable v hv

theorem quote_ne (s : String) : ehQuote s ≠ s := by
  intro h
  have := congrArg String.length h
  simp [ehQuote, String.length_append] at this
  have h1 : "'".length = 1 := rfl
  omega

/-- a via is said just as it was exactly if it has no polygons and no cut pattern -/
theorem c191_plain (v : EhVia) (hv : v.Ok) : ehReadVia (ehVia v) = some v ↔ v.polys = [] ∧ ∀ g ∈ v.gen, g.pattern = none := by
  rw [via_readable v hv]
  clear hv
  obtain ⟨n, rs, ps, gen⟩ := v
  cases ps with
  | cons p ps => simp
  | nil =>
      cases gen with
      | none => simp [EhVia.echoed]
      | some g =>
          obtain ⟨r, cs, ls, sp, en, rc, og, os, pat⟩ := g
          cases pat with
          | none => simp [EhVia.echoed]
          | some s => simp [EhVia.echoed, quote_ne]

/-- a cut pattern grows by two characters whenever the file is written again -/
theorem c191_grows (s : String) : (ehQuote s).length = s.length + 2 := by
  simp [ehQuote, String.length_append]
  have h1 : "'".length = 1 := rfl
  omega

/-- a via with a rule, a row count and a pattern -/
def exGenVia : EhVia :=
  { name := "v1", rects := [("M1", 0, -5, -5, 5, 5), ("V1", 2, -2, -2, 2, 2)],
    gen := some { rule := "R", cutSize := (4, 4), layers := ("M1", "V1", "M2"), cutSpacing := (6, 6), enclosure := (1, 1, 1, 1),
                  rowCol := (1, 2), pattern := some "F0" } }

example : ehReadVia (ehVia exGenVia) = some exGenVia.echoed ∧ exGenVia.echoed ≠ exGenVia ∧
    ehReadVia (ehVia { exGenVia with gen := none }) = some { exGenVia with gen := none } ∧
    ehReadVia (ehVia { exGenVia with polys := [("M1", 0, [(0, 0), (4, 0), (0, 4)])] }) = none := by
  decide +kernel

/-! ## Blockages -/

theorem blkBox_read (r : Int × Int × Int × Int) (b : EhBlk) (ts : List EhTok) :
    ehBlkShapes b none (ehBlkBox r ++ ts) = ehBlkShapes { b with boxes := b.boxes ++ [r] } none ts := by
  obtain ⟨a, c, d, e⟩ := r
  simp [ehBlkBox, ehBlkShapes, ehBlkClose]

theorem blkBoxes_read : ∀ (rs : List (Int × Int × Int × Int)) (b : EhBlk) (ts : List EhTok),
    ehBlkShapes b none (rs.flatMap ehBlkBox ++ ts) = ehBlkShapes { b with boxes := b.boxes ++ rs } none ts
  | [], b, ts => by simp
  | r :: rs, b, ts => by
    rw [List.flatMap_cons, List.append_assoc, blkBox_read, blkBoxes_read rs]
    simp

theorem blkPoly_bad (p : List (Int × Int)) (ps : List (List (Int × Int))) (b : EhBlk) :
    ehBlkShapes b none ((p :: ps).flatMap ehBlkPoly ++ [.semi]) = none := by
  cases p with
  | cons q p => simp [ehBlkPoly, ehBlkShapes, ehBlkClose]
  | nil =>
      cases ps with
      | nil => simp [ehBlkPoly, ehBlkShapes, ehBlkClose]
      | cons p ps => simp [ehBlkPoly, ehBlkShapes, ehBlkClose]

/-- the shapes of a blockage that was begun -/
theorem blkShapes_read (b : EhBlk) (rs : List (Int × Int × Int × Int)) (ps : List (List (Int × Int)))
    (hb : b.boxes = []) (hs : rs ≠ [] ∨ ps ≠ []) :
    ehBlkShapes b none (rs.flatMap ehBlkBox ++ (ps.flatMap ehBlkPoly ++ [.semi])) =
      if ps = [] then some { b with boxes := rs } else none := by
  rw [blkBoxes_read]
  cases ps with
  | cons p ps => rw [blkPoly_bad]; simp
  | nil =>
      have : rs ≠ [] := by simpa using hs
      simp [ehBlkShapes, ehBlkClose, hb, this]

/-- the text of shapes does not begin with an option -/
def NoPlus (ts : List EhTok) : Prop := ∀ r, ts ≠ .plus :: r

theorem shapes_noplus (rs : List (Int × Int × Int × Int)) (ps : List (List (Int × Int))) :
    NoPlus (rs.flatMap ehBlkBox ++ (ps.flatMap ehBlkPoly ++ [.semi])) := by
  intro r
  cases rs with
  | cons a rs => simp [ehBlkBox]
  | nil =>
      cases ps with
      | cons p ps => simp [ehBlkPoly]
      | nil => simp

theorem layerIn_shapes (b : EhBlk) (ts : List EhTok) (h : NoPlus ts) : ehBlkLayerIn b ts = ehBlkShapes b none ts := by
  rw [ehBlkLayerIn.eq_def]
  split <;> first | rfl | exact absurd rfl (h _)

theorem placeIn_shapes (b : EhBlk) (ts : List EhTok) (h : NoPlus ts) : ehBlkPlaceIn b ts = ehBlkShapes b none ts := by
  rw [ehBlkPlaceIn.eq_def]
  split <;> first | rfl | exact absurd rfl (h _)

theorem layerIn_opts (l : String) (b : EhBlk) (ts : List EhTok) (h : NoPlus ts) (hs : b.soft = false) (hd : b.density = none)
    (hl : b.layer = some l) :
    ehReadBlk (ehBlkLayer l b ++ ts) = ehBlkShapes { b with boxes := [], polys := [] } none ts := by
  obtain ⟨ly, comp, type, pd, ep, mask, rule, soft, den, boxes, polys⟩ := b
  dsimp only at hs hd hl
  subst hs hd hl
  unfold ehBlkLayer
  simp only [List.cons_append, List.nil_append, List.append_assoc, ehReadBlk]
  rw [← layerIn_shapes _ ts h]
  by_cases hm : mask = 0
  · subst hm
    rcases type with _ | _ | _ <;> cases comp <;> cases pd <;> cases ep <;> cases rule <;> simp [ehBlkLayerIn]
  · rcases type with _ | _ | _ <;> cases comp <;> cases pd <;> cases ep <;> cases rule <;> simp [ehBlkLayerIn, hm]

theorem placeIn_opts (b : EhBlk) (ts : List EhTok) (h : NoPlus ts) (hl : b.layer = none)
    (ht : b.type = none ∧ b.exceptPg = false ∧ b.mask = 0 ∧ b.rule = .none)
    (hd : ¬ (b.soft = true ∧ b.density ≠ none)) (hx : ∀ d ∈ b.density, ehG d = d) :
    ehReadBlk (ehBlkPlace b ++ ts) = ehBlkShapes { b with boxes := [], polys := [] } none ts := by
  obtain ⟨ly, comp, type, pd, ep, mask, rule, soft, den, boxes, polys⟩ := b
  dsimp only at ht hd hl hx
  obtain ⟨h1, h2, h3, h4⟩ := ht
  subst h1 h2 h3 h4 hl
  unfold ehBlkPlace
  simp only [List.cons_append, List.nil_append, List.append_assoc, ehReadBlk]
  rw [← placeIn_shapes _ ts h]
  cases soft with
  | true =>
      have : den = none := by simpa using hd
      subst this
      cases comp <;> cases pd <;> simp [ehBlkPlaceIn]
  | false =>
      cases den with
      | none => cases comp <;> cases pd <;> simp [ehBlkPlaceIn]
      | some d =>
          have hx := hx d rfl
          cases comp <;> cases pd <;> simp [ehBlkPlaceIn, hx]

theorem blk_readable (b : EhBlk) (hb : b.Ok) : ehReadBlk (ehBlk b) = if b.polys = [] then some b else none := by
  obtain ⟨hs, hlay, hpl⟩ := hb
  unfold ehBlk
  cases hl : b.layer with
  | some l =>
      obtain ⟨h1, h2⟩ := hlay (by simp [hl])
      dsimp only
      simp only [List.append_assoc]
      rw [layerIn_opts l b _ (shapes_noplus _ _) h1 h2 hl, blkShapes_read _ _ _ rfl hs]
      split
      · rename_i hp; congr 1; cases b; simp_all
      · rfl
  | none =>
      obtain ⟨h1, h2, h3, h4, h5, h6, h7⟩ := hpl hl
      dsimp only
      simp only [List.append_assoc]
      rw [placeIn_opts b _ (shapes_noplus _ _) hl ⟨h1, h2, h3, h4⟩ h6 (fun d hd => ehG_small (h7 d hd)),
        blkShapes_read _ _ _ rfl hs]
      rw [if_pos h5, if_pos h5]
      congr 1; cases b; simp_all

/-- a blockage of the reference file is said just as it was, exactly if it has no polygon; one with a polygon cannot be read -/
theorem c192_blockage_partial (b : EhBlk) (hb : b.Ok) : ehReadBlk (ehBlk b) = if b.polys = [] then some b else none :=
  blk_readable b hb

/-- all of a section of blockages is read again exactly if no blockage has a polygon -/
theorem c192_all (bs : List EhBlk) (hb : ∀ b ∈ bs, b.Ok) :
    (∀ b ∈ bs, ehReadBlk (ehBlk b) = some b) ↔ ∀ b ∈ bs, b.polys = [] := by
  constructor
  · intro h b hm
    have := h b hm
    rw [blk_readable b (hb b hm)] at this
    by_cases hp : b.polys = []
    · exact hp
    · simp [hp] at this
  · intro h b hm
    rw [blk_readable b (hb b hm), if_pos (h b hm)]

/-- different blockages without polygons have different texts -/
theorem c192_inj (a b : EhBlk) (ha : a.Ok) (hb : b.Ok) (pa : a.polys = []) (pb : b.polys = []) (h : ehBlk a = ehBlk b) :
    a = b := by
  have h1 := blk_readable a ha
  have h2 := blk_readable b hb
  rw [h, h2, if_pos pa, if_pos pb] at h1
  exact (Option.some.inj h1).symm

/-- a blockage on a layer and one of placement -/
def exBlkLayer : EhBlk :=
  { layer := some "M2", comp := some "u1", type := some .fills, pushdown := true, exceptPg := true, mask := 2, rule := .width 40,
    boxes := [(0, 0, 10, 10), (20, 0, 30, 5)] }

/-- a blockage of placement -/
def exBlkPlace : EhBlk := { layer := none, density := some 45, boxes := [(0, 0, 10, 10)] }

example : exBlkLayer.Ok ∧ exBlkPlace.Ok ∧ ehReadBlk (ehBlk exBlkLayer) = some exBlkLayer ∧
    ehReadBlk (ehBlk exBlkPlace) = some exBlkPlace ∧
    ehReadBlk (ehBlk { exBlkLayer with polys := [[(0, 0), (4, 0), (0, 4)]] }) = none := by
  refine ⟨by simp [EhBlk.Ok, exBlkLayer], by simp [EhBlk.Ok, exBlkPlace], ?_⟩
  decide +kernel

end TR
