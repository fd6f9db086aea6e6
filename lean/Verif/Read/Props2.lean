import Verif.Read.Query
import Verif.Read.Props
import Verif.Read.Lef
import Verif.Read.Store
/-! # Properties C118–C121: fixed shapes, routed shapes, vias and library cells -/
namespace TR

/-! ### C118: the fixed shapes near a place -/

/-- For a file that was read, a query returns exactly the fixed shapes of the layer that share a point with the
box, each with its owner. -/
theorem c118_query (E : REnv) (vs : List RViaDef) (hvs : ∀ d ∈ vs, d.OneLayer) (rs : List DefRec) (B : RBlock)
    (h : readDesign E vs rs = some B) (q : Box) (hq : q.Valid) (l : Int) (b : Box) (o : ShapeOwner) :
    (b, o) ∈ queryShapes B q l ↔ FixedAt B l b o ∧ ∃ p, b.Mem p ∧ q.Mem p := by
  have one : ∀ d ∈ B.vias, d.OneLayer := by
    obtain ⟨ds, he, hv⟩ := viasInv E vs rs B h
    intro d hd
    rw [he, List.mem_append] at hd
    rcases hd with hd | hd
    · exact hvs d hd
    · exact viasAre_one E _ _ hv d hd
  unfold queryShapes
  rw [List.mem_filterMap]
  constructor
  · rintro ⟨⟨l', b', o'⟩, hm, hc⟩
    split at hc
    · rename_i hcond
      simp only [Option.some.injEq, Prod.mk.injEq] at hc
      obtain ⟨rfl, rfl⟩ := hc
      obtain ⟨rfl, hov⟩ := hcond
      have hf := (mem_fixedShapes B one _ _ _).1 hm
      exact ⟨hf, (c04_overlaps_closed _ _ (fixed_valid E vs rs B h _ _ _ hf) hq).1 hov⟩
    · cases hc
  · rintro ⟨hf, hp⟩
    refine ⟨(l, b, o), (mem_fixedShapes B one _ _ _).2 hf, ?_⟩
    rw [if_pos ⟨rfl, (c04_overlaps_closed _ _ (fixed_valid E vs rs B h _ _ _ hf) hq).2 hp⟩]

/-- A shape of a component that is found is the shape of the library cell, moved: the placement maps the points of
the one to the points of the other. -/
theorem c118_placed (I : RInst) (b : Box) (hb : b.Valid) (p : Point) :
    (b.transform I.xform).Mem (p.transform I.xform) ↔ b.Mem p := c02_box_transform_points _ _ hb _

/-- The code leaves out polygons: a design whose only pin is a polygon has no fixed shapes at all. -/
theorem c118_polygons_missing : ∃ (E : REnv) (rs : List DefRec) (B : RBlock) (P : TopPin) (pts : List Point),
    readDesign E [] rs = some B ∧ P ∈ B.pins ∧ .poly 2 pts ∈ P.figs ∧ ∀ q l, queryShapes B q l = [] := by
  have h : (readDesign ReadEx.env [] [.pin ⟨"in", none, false, [], [("M1", [⟨0, 0⟩, ⟨9, 0⟩, ⟨9, 9⟩])], ⟨0, 0⟩, 0⟩]).map
      (fun B => (B.pins.map TopPin.figs, fixedShapes B)) =
      some ([[.poly 2 [⟨0, 0⟩, ⟨9, 0⟩, ⟨9, 9⟩]]], []) := by decide +kernel
  rw [Option.map_eq_some_iff] at h
  obtain ⟨B, hB, h⟩ := h
  rw [Prod.mk.injEq] at h
  have hm : [PinFig.poly 2 [⟨0, 0⟩, ⟨9, 0⟩, ⟨9, 9⟩]] ∈ B.pins.map TopPin.figs := by rw [h.1]; exact List.mem_cons_self
  obtain ⟨P, hP, e⟩ := List.mem_map.1 hm
  refine ⟨_, _, B, P, [⟨0, 0⟩, ⟨9, 0⟩, ⟨9, 9⟩], hB, hP, by rw [e]; exact List.mem_cons_self, ?_⟩
  intro q l
  unfold queryShapes; rw [h.2]; rfl

example : (readDesign ReadEx.env [] ReadEx.file).map (fun B => queryShapes B ⟨⟨0, 0⟩, ⟨50, 30⟩⟩ 2) =
    some [(⟨⟨1, 1⟩, ⟨3, 3⟩⟩, .cellPin 0 0), (⟨⟨6, 1⟩, ⟨8, 3⟩⟩, .cellPin 0 1),
      (⟨⟨47, 17⟩, ⟨49, 19⟩⟩, .cellPin 1 0), (⟨⟨42, 17⟩, ⟨44, 19⟩⟩, .cellPin 1 1)] := by decide +kernel
example : (readDesign ReadEx.env [] ReadEx.file).map (fun B => queryShapes B ⟨⟨0, 0⟩, ⟨50, 200⟩⟩ 4) =
    some [(⟨⟨0, 8⟩, ⟨10, 9⟩⟩, .cellObs 0 0), (⟨⟨40, 11⟩, ⟨50, 12⟩⟩, .cellObs 1 0), (⟨⟨0, 98⟩, ⟨50, 102⟩⟩, .wire 2 0),
      (⟨⟨0, 30⟩, ⟨5, 35⟩⟩, .blk 0)] := by decide +kernel

/-! ### C119: the store of routed shapes -/

/-- After every history of edits in which objects are created once and only existing ones are changed or taken out, a
query returns every existing object on the layer that meets the box, with its present shape, and nothing else. -/
theorem c119_exact (shape : Nat → Int × Box) (ids : List Nat) (hid : ids.Nodup) (es : List DrEdit)
    (ok : (Live.start shape ids).AllowsAll es) (q : Box) (l : Int) (b : Box) (i : Nat) :
    (b, i) ∈ ((RStore.init shape ids).edits es).query q l ↔
      ((Live.start shape ids).editAll es) i = some (l, b) ∧ b.overlaps q = true := by
  obtain ⟨_, h2, _⟩ := store_edits (store_init shape ids hid) es ok
  unfold RStore.query
  rw [List.mem_filterMap]
  constructor
  · rintro ⟨⟨⟨l', b'⟩, i'⟩, hm, hc⟩
    split at hc
    · rename_i hcond
      simp only [Option.some.injEq, Prod.mk.injEq] at hc
      obtain ⟨rfl, rfl⟩ := hc
      obtain ⟨rfl, hov⟩ := hcond
      exact ⟨(h2 _ _).1 hm, hov⟩
    · cases hc
  · rintro ⟨hl, hov⟩
    exact ⟨((l, b), i), (h2 _ _).2 hl, by rw [if_pos ⟨rfl, hov⟩]⟩

/-- Every object is returned at most once. -/
theorem c119_once (shape : Nat → Int × Box) (ids : List Nat) (hid : ids.Nodup) (es : List DrEdit)
    (ok : (Live.start shape ids).AllowsAll es) (q : Box) (l : Int) :
    ((((RStore.init shape ids).edits es).query q l).map Prod.snd).Nodup := by
  obtain ⟨h1, _, _⟩ := store_edits (store_init shape ids hid) es ok
  unfold RStore.query
  refine List.Nodup.sublist ?_ h1
  generalize ((RStore.init shape ids).edits es).ents = en
  induction en with
  | nil => exact List.Sublist.refl _
  | cons e en ih =>
    rw [List.filterMap_cons]
    split
    · exact List.Sublist.cons _ ih
    · rename_i x hx
      split at hx
      · simp only [Option.some.injEq] at hx
        subst hx
        exact List.Sublist.cons_cons _ ih
      · cases hx

/-- Why the order matters: if the points of an object are changed before it is taken out, the old entry stays. -/
theorem c119_stale : ∃ (shape : Nat → Int × Box) (s : Int × Box) (q : Box),
    (1, s) ≠ (1, shape 1) ∧
    (((RStore.init shape [1]).run [.set 1 s, .remove 1, .add 1]).query q 2).map Prod.snd = [1, 1] :=
  ⟨fun _ => (2, ⟨⟨0, 0⟩, ⟨9, 1⟩⟩), (2, ⟨⟨0, 0⟩, ⟨5, 1⟩⟩), ⟨⟨0, 0⟩, ⟨9, 9⟩⟩, by decide, by decide +kernel⟩

example : (Live.start (fun _ => (2, ⟨⟨0, 0⟩, ⟨9, 1⟩⟩)) [1, 2]).AllowsAll
    [.reshape 1 (2, ⟨⟨0, 0⟩, ⟨5, 1⟩⟩), .create 3 (2, ⟨⟨5, 0⟩, ⟨9, 1⟩⟩), .delete 2] := by
  refine ⟨?_, ?_, ?_, trivial⟩ <;> simp [Live.Allows, Live.edit, Live.start]
example : ((RStore.init (fun _ => (2, ⟨⟨0, 0⟩, ⟨9, 1⟩⟩)) [1, 2]).edits
    [.reshape 1 (2, ⟨⟨0, 0⟩, ⟨5, 1⟩⟩), .create 3 (2, ⟨⟨5, 0⟩, ⟨9, 1⟩⟩), .delete 2]).query ⟨⟨6, 0⟩, ⟨7, 1⟩⟩ 2 =
    [(⟨⟨5, 0⟩, ⟨9, 1⟩⟩, 3)] := by decide +kernel

/-! ### C120: the vias of a design -/

/-- The via definitions after the file is read: those of the library, then one for every via of the file that is not
skipped, in order, with the name and the shapes the file gives. -/
theorem c120_vias (E : REnv) (vs : List RViaDef) (rs : List DefRec) (B : RBlock) (h : readDesign E vs rs = some B) :
    ∃ ds, B.vias = vs ++ ds ∧ ViasAre E (viasOf rs) ds := viasInv E vs rs B h

/-- Routes name the last definition given: a via of the design with the name of one of the library replaces it. -/
theorem c120_named (E : REnv) (vs : List RViaDef) (rs : List DefRec) (B : RBlock) (h : readDesign E vs rs = some B)
    (v : DefVia) (hv : v ∈ viasOf rs) (hs : ¬ ViaSkipped E v) :
    ∃ w d, w ∈ viasOf rs ∧ w.name = v.name ∧ ViaIs E w d ∧ ViaDefIs B.vias v.name d := by
  obtain ⟨ds, he, ha⟩ := viasInv E vs rs B h
  have all : ∀ us ds, ViasAre E us ds → (∀ d ∈ ds, ∃ w ∈ us, ViaIs E w d) ∧
      (∀ w ∈ us, ¬ ViaSkipped E w → ∃ d ∈ ds, ViaIs E w d) := by
    intro us
    induction us with
    | nil => intro ds hd; simp only [ViasAre] at hd; subst hd; simp
    | cons u us ih =>
      intro ds hd
      rcases hd with ⟨hsk, hd⟩ | ⟨hns, d0, r, rfl, h1, _, h3⟩
      · obtain ⟨a, b⟩ := ih ds hd
        refine ⟨fun d hd => ?_, ?_⟩
        · obtain ⟨w, hw, hi⟩ := a d hd; exact ⟨w, List.mem_cons_of_mem _ hw, hi⟩
        · intro w hw hn
          rw [List.mem_cons] at hw
          rcases hw with rfl | hw
          · exact absurd hsk hn
          · exact b w hw hn
      · obtain ⟨a, b⟩ := ih r h3
        refine ⟨fun d hd => ?_, ?_⟩
        · rw [List.mem_cons] at hd
          rcases hd with rfl | hd
          · exact ⟨u, List.mem_cons_self, h1⟩
          · obtain ⟨w, hw, hi⟩ := a d hd; exact ⟨w, List.mem_cons_of_mem _ hw, hi⟩
        · intro w hw hn
          rw [List.mem_cons] at hw
          rcases hw with rfl | hw
          · exact ⟨d0, List.mem_cons_self, h1⟩
          · obtain ⟨d, hd, hi⟩ := b w hw hn; exact ⟨d, List.mem_cons_of_mem _ hd, hi⟩
  obtain ⟨h1, h2⟩ := all _ _ ha
  obtain ⟨d1, hd1, hi1⟩ := h2 v hv hs
  -- the last definition with the name is one of those of the file
  obtain ⟨i1, hi1', e1⟩ := List.getElem_of_mem hd1
  obtain ⟨k, hk, hlast⟩ := exists_last (fun k => ∃ d, B.vias[k]? = some d ∧ d.name = v.name) B.vias.length
    (fun k hk => by obtain ⟨d, hd, _⟩ := hk; exact (List.getElem?_eq_some_iff.1 hd).1)
    ⟨vs.length + i1, d1, by
      rw [he, List.getElem?_append_right (by omega), Nat.add_sub_cancel_left, List.getElem?_eq_getElem hi1', e1], hi1.1⟩
  obtain ⟨d, hd, hn⟩ := hk
  have hge : vs.length ≤ k := by
    rcases Nat.lt_or_ge k vs.length with hlt | hge
    · exfalso
      refine hlast (vs.length + i1) (by omega) ⟨d1, ?_, hi1.1⟩
      rw [he, List.getElem?_append_right (by omega), Nat.add_sub_cancel_left, List.getElem?_eq_getElem hi1', e1]
    · exact hge
  have hd' : d ∈ ds := by
    rw [he, List.getElem?_append_right hge] at hd
    exact List.mem_of_getElem? hd
  obtain ⟨w, hw, hwi⟩ := h1 d hd'
  refine ⟨w, d, hw, by rw [← hwi.1, hn], hwi, k, ⟨d, hd, hn, ?_⟩, hd⟩
  intro j b hj hb e
  exact hlast j hj ⟨b, hb, e⟩

namespace ReadEx
/-- two rows of three cuts -/
def gen : ViaGen := ⟨"M1", "V1", "M2", ⟨5, 4⟩, ⟨2, 2⟩, ⟨1, 3⟩, ⟨3, 1⟩, ⟨10, 0⟩, ⟨0, 0⟩, ⟨0, 1⟩, 2, 3⟩
end ReadEx
example : ReadEx.gen.Sane := by unfold ViaGen.Sane; decide
example : cutsWidth ReadEx.gen = 19 ∧ cutsHeight ReadEx.gen = 10 := by decide +kernel
example : (ruleVia ReadEx.env "g" ReadEx.gen).map (fun d => (d.l1, d.l2)) =
    some ([(2, ⟨⟨0, -8⟩, ⟨21, 8⟩⟩)], [(4, ⟨⟨-2, -5⟩, ⟨23, 7⟩⟩)]) := by decide +kernel
example : (ruleVia ReadEx.env "g" ReadEx.gen).map (fun d => (d.cut.length, d.cut.head?)) =
    some (6, some (3, ⟨⟨1, -5⟩, ⟨6, -1⟩⟩)) := by decide +kernel
example : (readDesign ReadEx.env [] [.via ⟨"v", none, [("M2", 0, 0, 9, 9), ("V1", 2, 2, 4, 4), ("M1", 1, 1, 8, 8)], false⟩,
    .via ⟨"w", none, [("M9", 0, 0, 9, 9)], false⟩]).map (fun B => B.vias) =
    some [⟨"v", [(2, ⟨⟨1, 1⟩, ⟨8, 8⟩⟩)], [(3, ⟨⟨2, 2⟩, ⟨4, 4⟩⟩)], [(4, ⟨⟨0, 0⟩, ⟨9, 9⟩⟩)]⟩] := by decide +kernel

/-! ### C121: library cells and their orientations -/

/-- The cells of the library, in the order of the file: the terminals and obstructions in order, with the shapes under
known layers. -/
theorem c121_cells (layerNum : String → Option Int) (ms : List LefMacro) (cs : List RCell)
    (h : readLef layerNum ms = some cs) :
    cs.length = ms.length ∧ ∀ (i : Nat) (c : RCell) (m : LefMacro), cs[i]? = some c → ms[i]? = some m →
      LefCellIs layerNum m c := by
  induction ms generalizing cs with
  | nil => simp only [readLef, Option.some.injEq] at h; subst h; exact ⟨rfl, by intro i c m h; simp at h⟩
  | cons m0 ms ih =>
    simp only [readLef, Option.bind_eq_some_iff, Option.map_eq_some_iff] at h
    obtain ⟨c0, h0, cs', h', rfl⟩ := h
    obtain ⟨hl, hp⟩ := ih cs' h'
    refine ⟨by simp [hl], ?_⟩
    intro i c m hc hm
    cases i with
    | succ i => exact hp i c m (by simpa using hc) (by simpa using hm)
    | zero =>
      simp only [List.getElem?_cons_zero, Option.some.injEq] at hc hm
      subst hc; subst hm
      simp only [readMacro, Option.map_eq_some_iff] at h0
      obtain ⟨ts, hts, rfl⟩ := h0
      have hpw := readLefPins_all layerNum _ _ hts
      refine ⟨rfl, rfl, hpw.1, ?_, by simp, ?_⟩
      · intro k t p ht hpp
        have := hpw.2 k t p ht hpp
        simp only [readLefPin, Option.map_eq_some_iff] at this
        obtain ⟨u, hu, rfl⟩ := this
        refine ⟨rfl, (useKind_is _ _).1 hu, by simp, ?_⟩
        intro i fs it h1 h2
        exact map_figs layerNum _ i fs it h1 h2
      · intro i fs it h1 h2
        exact map_figs layerNum _ i fs it h1 h2

/-- The library is read to its end exactly if every USE of a pin is one of SIGNAL, CLOCK, POWER and GROUND. -/
theorem c121_accepts (layerNum : String → Option Int) (ms : List LefMacro) :
    (∃ cs, readLef layerNum ms = some cs) ↔ ∀ m ∈ ms, ∀ p ∈ m.pins, UseKnown p.use := by
  induction ms with
  | nil => simp [readLef]
  | cons m ms ih =>
    rw [List.forall_mem_cons, ← ih]
    simp only [← useKind_iff, ← readLefPins_some layerNum, readLef, readMacro,
      Option.bind_eq_some_iff, Option.map_eq_some_iff]
    constructor
    · rintro ⟨_, _, ⟨ts, hts, _⟩, cs, hcs, _⟩; exact ⟨⟨ts, hts⟩, cs, hcs⟩
    · rintro ⟨⟨ts, hts⟩, cs, hcs⟩; exact ⟨_, _, ⟨ts, hts, rfl⟩, cs, hcs, rfl⟩

/-- The orientations N W S E FN FW FS FE of DEF: the turns by 0, 90, 180 and 270 degrees, and the same after
mirroring at the vertical axis (FN, FS: at the vertical, the horizontal axis; FW: at the horizontal axis, then turned
by 90 degrees; FE: at the vertical axis, then turned by 90 degrees). -/
theorem c121_orientations (x y : Int) :
    (List.range 8).map (fun i => (⟨x, y⟩ : Point).transform ⟨0, 0, orientOf (Fin.ofNat 8 i)⟩) =
      [⟨x, y⟩, ⟨-y, x⟩, ⟨-x, -y⟩, ⟨y, -x⟩, ⟨-x, y⟩, ⟨y, x⟩, ⟨x, -y⟩, ⟨-y, -x⟩] := by
  simp [List.range, List.range.loop, orientOf, Point.transform]

/-- A component stands where the design says: the rectangle of the cell between ORIGIN and SIZE is mapped to the
rectangle with its lower left corner at the given point. -/
theorem c121_outline (I : RInst) (o s : Point) (hc : I.cell.bounds = [lefBoundary o s]) (h0 : 0 ≤ s.x ∧ 0 ≤ s.y)
    (hx : o.x ≤ s.x) (hy : o.y ≤ s.y) :
    (⟨⟨-o.x, -o.y⟩, ⟨s.x - o.x, s.y - o.y⟩⟩ : Box).transform I.xform =
      ⟨I.org, if I.ori.swaps then ⟨I.org.x + s.y, I.org.y + s.x⟩ else ⟨I.org.x + s.x, I.org.y + s.y⟩⟩ := by
  have := c03_placed_outline ⟨I.org.x, I.org.y, I.ori⟩ o s h0 hx hy
  unfold RInst.xform
  rw [hc]
  exact this

example : (readLef ReadEx.env.layerNum [⟨"INV", ⟨0, 0⟩, ⟨10, 20⟩, [⟨"A", none, [[.layer "M1", .rect 1 1 3 3, .layer "OVL",
    .rect 0 0 9 9, .layer "M2", .poly [⟨0, 0⟩, ⟨1, 0⟩, ⟨1, 1⟩]]]⟩], [[.layer "M2", .rect 0 8 10 9]]⟩]).map
    (fun cs => cs.map (fun c => (c.terms.map RTerm.ports, c.obs))) =
    some [([[[.rect 2 ⟨⟨1, 1⟩, ⟨3, 3⟩⟩, .poly 4 [⟨0, 0⟩, ⟨1, 0⟩, ⟨1, 1⟩]]]], [[.rect 4 ⟨⟨0, 8⟩, ⟨10, 9⟩⟩]])] := by
  decide +kernel

end TR
