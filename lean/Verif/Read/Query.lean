import Verif.Read.Vias
import Verif.Read.Tracks
namespace TR

theorem mem_range_flatMap {α β : Type} (l : List α) (f : Nat → α → List β) (x : β) :
    x ∈ (List.range l.length).flatMap (fun k => ((l[k]?).map (f k)).getD []) ↔ ∃ (k : Nat) (a : α), l[k]? = some a ∧ x ∈ f k a := by
  simp only [List.mem_flatMap, List.mem_range]
  constructor
  · rintro ⟨k, hk, hx⟩
    rw [List.getElem?_eq_getElem hk] at hx
    exact ⟨k, l[k], List.getElem?_eq_getElem hk, by simpa using hx⟩
  · rintro ⟨k, a, ha, hx⟩
    exact ⟨k, (List.getElem?_eq_some_iff.1 ha).1, by rw [ha]; simpa using hx⟩

theorem mem_range_filterMap {α β : Type} (l : List α) (f : Nat → α → β) (x : β) :
    x ∈ (List.range l.length).filterMap (fun k => (l[k]?).map (f k)) ↔ ∃ (k : Nat) (a : α), l[k]? = some a ∧ x = f k a := by
  simp only [List.mem_filterMap, List.mem_range, Option.map_eq_some_iff]
  constructor
  · rintro ⟨k, hk, a, ha, rfl⟩; exact ⟨k, a, ha, rfl⟩
  · rintro ⟨k, a, ha, rfl⟩; exact ⟨k, (List.getElem?_eq_some_iff.1 ha).1, a, ha, rfl⟩

theorem mem_figShapes (t : Option Xform) (o o' : ShapeOwner) (fs : List PinFig) (l : Int) (b : Box) :
    (l, b, o') ∈ figShapes t o fs ↔ o' = o ∧ ∃ c, .rect l c ∈ fs ∧ b = t.elim c c.transform := by
  unfold figShapes
  rw [List.mem_filterMap]
  constructor
  · rintro ⟨f, hf, h⟩
    cases f with
    | rect l' c =>
      simp only [Option.some.injEq, Prod.mk.injEq] at h
      obtain ⟨rfl, h2, rfl⟩ := h
      exact ⟨rfl, c, hf, by rw [← h2]; cases t <;> rfl⟩
    | poly l' c => simp at h
  · rintro ⟨rfl, c, hc, rfl⟩
    exact ⟨_, hc, by cases t <;> rfl⟩

theorem head_layer {xs : List (Int × Box)} (h : ∀ r ∈ xs, ∀ s ∈ xs, r.1 = s.1) (r : Int × Box) (hr : r ∈ xs) :
    (xs.head?.map Prod.fst).getD 0 = r.1 := by
  cases xs with
  | nil => cases hr
  | cons x xs => simpa using h x List.mem_cons_self r hr

theorem mem_viaShapes (vias : List RViaDef) (one : ∀ d ∈ vias, d.OneLayer) (o o' : ShapeOwner) (v : OVia) (l : Int)
    (b : Box) : (l, b, o') ∈ viaShapes vias o v ↔ o' = o ∧ ∃ d c, ViaDefIs vias v.name d ∧
      (l, c) ∈ d.l1 ++ d.cut ++ d.l2 ∧ b = c.transform ⟨v.o.x, v.o.y, .R0⟩ := by
  unfold viaShapes
  simp only [← viaNamed_iff]
  cases hd : viaNamed vias v.name with
  | none => simp
  | some d =>
    have hm : d ∈ vias := by
      obtain ⟨i, _, h⟩ := (viaNamed_iff _ _ _).1 hd
      exact List.mem_of_getElem? h
    obtain ⟨o1, o2, o3⟩ := one d hm
    simp only [Option.map_some, Option.getD_some, List.mem_append, List.mem_map, Prod.mk.injEq, Option.some.injEq]
    constructor
    · rintro ((⟨r, hr, rfl, rfl, rfl⟩ | ⟨r, hr, rfl, rfl, rfl⟩) | ⟨r, hr, rfl, rfl, rfl⟩)
      · refine ⟨rfl, d, r.2, rfl, Or.inl (Or.inl ?_), rfl⟩
        unfold RViaDef.low; rw [head_layer o1 r hr]; exact hr
      · refine ⟨rfl, d, r.2, rfl, Or.inr ?_, rfl⟩
        rw [head_layer o3 r hr]; exact hr
      · refine ⟨rfl, d, r.2, rfl, Or.inl (Or.inr ?_), rfl⟩
        unfold RViaDef.cutNum; rw [head_layer o2 r hr]; exact hr
    · rintro ⟨rfl, _, c, rfl, (hc | hc) | hc, rfl⟩
      · exact Or.inl (Or.inl ⟨(l, c), hc, head_layer o1 _ hc, rfl, rfl⟩)
      · exact Or.inr ⟨(l, c), hc, head_layer o2 _ hc, rfl, rfl⟩
      · exact Or.inl (Or.inr ⟨(l, c), hc, head_layer o3 _ hc, rfl, rfl⟩)

theorem mem_fixedShapes (B : RBlock) (one : ∀ d ∈ B.vias, d.OneLayer) (l : Int) (b : Box) (o : ShapeOwner) :
    (l, b, o) ∈ fixedShapes B ↔ FixedAt B l b o := by
  unfold fixedShapes
  simp only [List.mem_append]
  rw [mem_range_flatMap B.insts (fun i I => instShapes i I), mem_range_flatMap B.pins (fun i p => figShapes none (.pin i) p.figs),
    mem_range_flatMap B.blks (fun i b => b.rects.map (fun r => (r.1, r.2, ShapeOwner.blk i)))]
  constructor
  · rintro (((⟨i, I, hI, h⟩ | ⟨i, P, hP, h⟩) | h) | ⟨i, K, hK, h⟩)
    · unfold instShapes at h
      rw [List.mem_append, mem_range_flatMap I.cell.terms (fun k t => t.ports.flatMap (figShapes (some I.xform) (.cellPin i k))),
        mem_range_flatMap I.cell.obs (fun k fs => figShapes (some I.xform) (.cellObs i k) fs)] at h
      rcases h with ⟨k, t, ht, h⟩ | ⟨k, fs, ht, h⟩
      · rw [List.mem_flatMap] at h
        obtain ⟨port, hp, h⟩ := h
        obtain ⟨rfl, c, hc, rfl⟩ := (mem_figShapes _ _ _ _ _ _).1 h
        exact .cellPin hI ht hp hc
      · obtain ⟨rfl, c, hc, rfl⟩ := (mem_figShapes _ _ _ _ _ _).1 h
        exact .cellObs hI ht hc
    · obtain ⟨rfl, c, hc, rfl⟩ := (mem_figShapes _ _ _ _ _ _).1 h
      exact .pin hP hc
    · rw [List.mem_flatMap] at h
      obtain ⟨N, hN, h⟩ := h
      unfold snetShapes at h
      rw [List.mem_append, mem_range_filterMap N.wires (fun k s => (s.layer, s.bbox, ShapeOwner.wire N.id k)),
        mem_range_flatMap N.vias (fun k v => viaShapes B.vias (.via N.id k) v)] at h
      rcases h with ⟨k, s, hs, h⟩ | ⟨k, v, hv, h⟩
      · simp only [Prod.mk.injEq] at h
        obtain ⟨rfl, rfl, rfl⟩ := h
        exact .wire hN hs
      · obtain ⟨rfl, d, c, hd, hc, rfl⟩ := (mem_viaShapes B.vias one _ _ _ _ _).1 h
        exact .via hN hv hd hc
    · rw [List.mem_map] at h
      obtain ⟨r, hr, h⟩ := h
      simp only [Prod.mk.injEq] at h
      obtain ⟨rfl, rfl, rfl⟩ := h
      exact .blk hK hr
  · intro h
    cases h with
    | cellPin hI ht hp hc =>
      rename_i i k I t port b
      refine Or.inl (Or.inl (Or.inl ⟨i, I, hI, ?_⟩))
      unfold instShapes
      rw [List.mem_append, mem_range_flatMap I.cell.terms (fun k t => t.ports.flatMap (figShapes (some I.xform) (.cellPin i k)))]
      exact Or.inl ⟨k, t, ht, List.mem_flatMap.2 ⟨port, hp, (mem_figShapes _ _ _ _ _ _).2 ⟨rfl, b, hc, rfl⟩⟩⟩
    | cellObs hI ht hc =>
      rename_i i k I fs b
      refine Or.inl (Or.inl (Or.inl ⟨i, I, hI, ?_⟩))
      unfold instShapes
      rw [List.mem_append, mem_range_flatMap I.cell.obs (fun k fs => figShapes (some I.xform) (.cellObs i k) fs)]
      exact Or.inr ⟨k, fs, ht, (mem_figShapes _ _ _ _ _ _).2 ⟨rfl, b, hc, rfl⟩⟩
    | pin hP hc =>
      rename_i i P
      exact Or.inl (Or.inl (Or.inr ⟨i, P, hP, (mem_figShapes _ _ _ _ _ _).2 ⟨rfl, b, hc, rfl⟩⟩))
    | wire hN hs =>
      rename_i N k s
      refine Or.inl (Or.inr (List.mem_flatMap.2 ⟨N, hN, ?_⟩))
      unfold snetShapes
      rw [List.mem_append, mem_range_filterMap N.wires (fun k s => (s.layer, s.bbox, ShapeOwner.wire N.id k))]
      exact Or.inl ⟨k, s, hs, rfl⟩
    | via hN hv hd hc =>
      rename_i N k v d b
      refine Or.inl (Or.inr (List.mem_flatMap.2 ⟨N, hN, ?_⟩))
      unfold snetShapes
      rw [List.mem_append, mem_range_flatMap N.vias (fun k v => viaShapes B.vias (.via N.id k) v)]
      exact Or.inr ⟨k, v, hv, (mem_viaShapes B.vias one _ _ _ _ _).2 ⟨rfl, d, b, hd, hc, rfl⟩⟩
    | blk hK hr =>
      rename_i i K
      exact Or.inr ⟨i, K, hK, List.mem_map.2 ⟨(l, b), hr, rfl⟩⟩

theorem bbox_valid (s : DSeg) : s.bbox.Valid := by
  unfold DSeg.bbox; dsimp only; split <;> exact mk4_isValid _ _ _ _

theorem viasAre_one (E : REnv) (vs : List DefVia) (ds : List RViaDef) (h : ViasAre E vs ds) : ∀ d ∈ ds, d.OneLayer := by
  induction vs generalizing ds with
  | nil => simp only [ViasAre] at h; subst h; simp
  | cons v vs ih =>
    rcases h with ⟨_, h⟩ | ⟨_, d0, r, rfl, _, h2, h3⟩
    · exact ih ds h
    · intro d hd
      rw [List.mem_cons] at hd
      rcases hd with rfl | hd
      · exact h2
      · exact ih r h3 d hd

theorem fixed_valid (E : REnv) (vs : List RViaDef) (rs : List DefRec) (B : RBlock) (h : readDesign E vs rs = some B)
    (l : Int) (b : Box) (o : ShapeOwner) (hf : FixedAt B l b o) : b.Valid := by
  cases hf with
  | cellPin => exact transform_valid _ _
  | cellObs => exact transform_valid _ _
  | via => exact transform_valid _ _
  | wire => exact bbox_valid _
  | pin hP hb =>
    obtain ⟨p, _, hp⟩ := (placeInv E vs rs B h).pins.left hP
    obtain ⟨r, _, _, rfl⟩ := (hp.rects l b).1 hb
    exact transform_valid _ _
  | blk hK hb =>
    obtain ⟨d, _, _, r, _, rfl⟩ := ((trkInv E vs rs B h).blk l b).1 ⟨_, List.mem_of_getElem? hK, hb⟩
    exact mk4_isValid _ _ _ _

end TR
