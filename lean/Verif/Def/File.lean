import Verif.Def.Props
/-! # Properties of the file: C80, C82-C84 -/
namespace TR

/-- all wires have positive length and end half of the default width beyond their end points -/
def PlainExt (width : Int → Nat) (figs : List OFig) : Prop :=
  ∀ s, OWire figs s → s.b ≠ s.e ∧ s.st.beginExt = width s.layer / 2 ∧ s.st.endExt = width s.layer / 2

theorem out_ext (width : Int → Nat) (figs : List OFig) (hok : OWiresOk figs) (n : Nat)
    (hn : ∀ s, OWire figs s → s.net = n) (hp : PlainExt width figs)
    (hk : ∀ s, OWire figs s → s.st.beginKind = .extend ∧ s.st.endKind = .extend) (k : Int × Int × Int) (o : DSeg)
    (ho : o ∈ finalMap width figs k) :
    o.st.beginExt = width k.1 / 2 ∧ o.st.endExt = width k.1 / 2 ∧
    (o.st.beginKind = .extend ∨ o.st.beginKind = .truncate ∧ width k.1 / 2 = 0) ∧
    (o.st.endKind = .extend ∨ o.st.endKind = .truncate ∧ width k.1 / 2 = 0) := by
  have H := final_sub width figs hok n hn k
  obtain ⟨hB, hE⟩ := H.ends o ho
  have hin : ∀ t ∈ keySegs (longSegs figs) k, OWire figs t ∧ t.layer = k.1 := fun t ht => by
    obtain ⟨h1, h2⟩ := (mem_keySegs _ _ _).mp ht
    exact ⟨((mem_longSegs _ _).mp h1).1, by rw [← h2]; rfl⟩
  have h1 : o.st.beginExt = width k.1 / 2 ∧ (o.st.beginKind = .extend ∨ o.st.beginKind = .truncate ∧ width k.1 / 2 = 0) := by
    rcases hB with ⟨_, ⟨s, hs, hsb⟩, hle, hex⟩ | ⟨_, h2, h3⟩
    · rcases hex with ⟨e0, e1⟩ | ⟨t, ht, _, e2, e3⟩
      · have h2 := hle s hs hsb
        rw [(hp s (hin s hs).1).2.1, (hin s hs).2, e0] at h2
        exact ⟨by omega, Or.inr ⟨e1, by omega⟩⟩
      · rw [← e2, ← e3, (hp t (hin t ht).1).2.1, (hin t ht).2]
        exact ⟨rfl, Or.inl (hk t (hin t ht).1).1⟩
    · exact ⟨h2, Or.inl h3⟩
  have h2 : o.st.endExt = width k.1 / 2 ∧ (o.st.endKind = .extend ∨ o.st.endKind = .truncate ∧ width k.1 / 2 = 0) := by
    rcases hE with ⟨_, ⟨s, hs, hsb⟩, hle, hex⟩ | ⟨_, h2, h3⟩
    · rcases hex with ⟨e0, e1⟩ | ⟨t, ht, _, e2, e3⟩
      · have h2 := hle s hs hsb
        rw [(hp s (hin s hs).1).2.2, (hin s hs).2, e0] at h2
        exact ⟨by omega, Or.inr ⟨e1, by omega⟩⟩
      · rw [← e2, ← e3, (hp t (hin t ht).1).2.2, (hin t ht).2]
        exact ⟨rfl, Or.inl (hk t (hin t ht).1).2⟩
    · exact ⟨h2, Or.inl h3⟩
  exact ⟨h1.1, h2.1, h1.2, h2.2⟩

theorem metal_track {s : DSeg} {h : Bool} {c : Int} {x : Nat} (h1 : s.b.c h = c) (h2 : s.e.c h = c)
    (h3 : s.b.a h < s.e.a h) (hb : s.st.beginExt = x) (he : s.st.endExt = x) (w : Nat) (p : Point) :
    s.MetalW w p ↔ (c - (w / 2 : Nat) ≤ p.c h ∧ p.c h ≤ c + (w / 2 : Nat)) ∧ s.b.a h - x ≤ p.a h ∧ p.a h ≤ s.e.a h + x := by
  unfold DSeg.MetalW
  rw [hb, he]
  unfold Point.a Point.c at *
  cases h <;> simp only [Bool.false_eq_true, if_false, if_true] at * <;> omega

/-- With default extensions the written wires of a net have exactly the metal of the assigned wires. -/
theorem c82_metal (width : Int → Nat) (figs : List OFig) (hok : OWiresOk figs) (n : Nat)
    (hn : ∀ s, OWire figs s → s.net = n) (hp : PlainExt width figs)
    (hk : ∀ s, OWire figs s → s.st.beginKind = .extend ∧ s.st.endKind = .extend) (l : Int) (p : Point) :
    (∃ s, OWire figs s ∧ s.layer = l ∧ s.MetalW (width l) p) ↔
    (∃ o, OWire (mergeSplit width figs) o ∧ o.layer = l ∧ o.MetalW (width l) p) := by
  have hsub := final_sub width figs hok n hn
  have hok' : ∀ s ∈ longSegs figs, s.Ok ∧ s.b ≠ s.e := fun s hs => by
    rw [mem_longSegs] at hs; exact ⟨hok s hs.1, hs.2⟩
  constructor
  · rintro ⟨s, hs, rfl, hm⟩
    have hsk : s ∈ keySegs (longSegs figs) s.mkey :=
      (mem_keySegs _ _ _).mpr ⟨(mem_longSegs _ _).mpr ⟨hs, (hp s hs).1⟩, rfl⟩
    have hT := keySegs_track (longSegs figs) hok' s.mkey s hsk
    rw [metal_track hT.2.2.1 hT.2.2.2.1 hT.2.2.2.2 (hp s hs).2.1 (hp s hs).2.2] at hm
    obtain ⟨m1, m2, m3⟩ := hm
    -- the point of the centre line next to p
    have hc : ∃ t, s.b.a (keyH s.mkey) ≤ t ∧ t ≤ s.e.a (keyH s.mkey) ∧
        t - (width s.layer / 2 : Nat) ≤ p.a (keyH s.mkey) ∧ p.a (keyH s.mkey) ≤ t + (width s.layer / 2 : Nat) := by
      by_cases h1 : p.a (keyH s.mkey) < s.b.a (keyH s.mkey)
      · exact ⟨s.b.a (keyH s.mkey), by omega, by omega, by omega, by omega⟩
      · by_cases h2 : s.e.a (keyH s.mkey) < p.a (keyH s.mkey)
        · exact ⟨s.e.a (keyH s.mkey), by omega, by omega, by omega, by omega⟩
        · exact ⟨p.a (keyH s.mkey), by omega, by omega, by omega, by omega⟩
    obtain ⟨t, t1, t2, t3, t4⟩ := hc
    obtain ⟨o, ho, o1, o2⟩ := ((hsub s.mkey).cov t 0 (by omega) (by omega)).mp ⟨s, hsk, t1, by omega⟩
    have hpl := (hsub s.mkey).place o ho
    have hx := out_ext width figs hok n hn hp hk s.mkey o ho
    refine ⟨o, (wire_mergeSplit width figs hok n hn o).mpr ⟨_, ho⟩, hpl.1, ?_⟩
    rw [metal_track hpl.2.2.1 hpl.2.2.2.1 hpl.2.2.2.2 hx.1 hx.2.1]
    refine ⟨m1, ?_⟩
    have hw : width s.mkey.1 = width s.layer := rfl
    rw [hw]
    constructor <;> omega
  · rintro ⟨o, ho, rfl, hm⟩
    obtain ⟨k, hk'⟩ := (wire_mergeSplit width figs hok n hn o).mp ho
    have hpl := (hsub k).place o hk'
    have hx := out_ext width figs hok n hn hp hk k o hk'
    rw [metal_track hpl.2.2.1 hpl.2.2.2.1 hpl.2.2.2.2 hx.1 hx.2.1] at hm
    obtain ⟨m1, m2, m3⟩ := hm
    rw [hpl.1] at m1 ⊢
    have hc : ∃ t, o.b.a (keyH k) ≤ t ∧ t ≤ o.e.a (keyH k) ∧
        t - (width k.1 / 2 : Nat) ≤ p.a (keyH k) ∧ p.a (keyH k) ≤ t + (width k.1 / 2 : Nat) := by
      have := hpl.2.2.2.2
      by_cases h1 : p.a (keyH k) < o.b.a (keyH k)
      · exact ⟨o.b.a (keyH k), by omega, by omega, by omega, by omega⟩
      · by_cases h2 : o.e.a (keyH k) < p.a (keyH k)
        · exact ⟨o.e.a (keyH k), by omega, by omega, by omega, by omega⟩
        · exact ⟨p.a (keyH k), by omega, by omega, by omega, by omega⟩
    obtain ⟨t, t1, t2, t3, t4⟩ := hc
    obtain ⟨s, hs, s1, s2⟩ := ((hsub k).cov t 0 (by omega) (by omega)).mpr ⟨o, hk', t1, by omega⟩
    have hT := keySegs_track (longSegs figs) hok' k s hs
    have hsw : OWire figs s := ((mem_longSegs _ _).mp ((mem_keySegs _ _ _).mp hs).1).1
    have hsl : s.layer = k.1 := hT.1
    have hbx := (hp s hsw).2
    rw [hsl] at hbx
    refine ⟨s, hsw, hsl, ?_⟩
    rw [metal_track hT.2.2.1 hT.2.2.2.1 hT.2.2.2.2 hbx.1 hbx.2]
    refine ⟨m1, ?_⟩
    constructor <;> omega

/-! ### C83: vias -/

theorem mem_figVias (figs : List OFig) (v : OVia) : v ∈ figVias figs ↔ OFig.via v ∈ figs := by
  unfold figVias
  rw [List.mem_filterMap]
  constructor
  · rintro ⟨f, hf, e⟩
    cases f with
    | via t => simp only [Option.some.injEq] at e; subst e; exact hf
    | seg v => cases e
    | patch p => cases e
  · intro h; exact ⟨_, h, rfl⟩

theorem lastVias_pos {vs : List OVia} {k : Int × Int × Int} (hk : k ∈ vs.map OVia.key) :
    ∃ v, vs.reverse.find? (fun v => decide (v.key = k)) = some v ∧ v ∈ vs ∧ v.key = k := by
  cases h : vs.reverse.find? (fun v => decide (v.key = k)) with
  | none =>
    obtain ⟨v, hv, e⟩ := List.mem_map.mp hk
    have := List.find?_eq_none.mp h v (List.mem_reverse.mpr hv)
    exact absurd e (by simpa using this)
  | some v =>
    refine ⟨v, rfl, List.mem_reverse.mp (List.mem_of_find?_eq_some h), ?_⟩
    simpa using List.find?_some h

theorem mem_lastVias (vs : List OVia) (v : OVia) :
    v ∈ lastVias vs ↔ vs.reverse.find? (fun u => decide (u.key = v.key)) = some v := by
  unfold lastVias
  rw [List.mem_filterMap]
  constructor
  · rintro ⟨k, hk, e⟩
    have := List.find?_some e
    rw [decide_eq_true_eq] at this
    rw [this]; exact e
  · intro e
    refine ⟨v.key, ?_, e⟩
    rw [mem_sortKeys keyLt_lt3]
    exact List.mem_map.mpr ⟨v, List.mem_reverse.mp (List.mem_of_find?_eq_some e), rfl⟩

theorem via_mergeSplit (width : Int → Nat) (figs : List OFig) (v : OVia) :
    OFig.via v ∈ mergeSplit width figs ↔ v ∈ lastVias (figVias figs) := by
  unfold mergeSplit
  simp only [List.mem_append, List.mem_map]
  constructor
  · rintro (⟨s, _, e⟩ | ⟨u, hu, e⟩)
    · cases e
    · injection e with e; subst e; exact hu
  · intro h; exact Or.inr ⟨v, h, rfl⟩

/-- the vias in order -/
theorem figVias_mergeSplit (width : Int → Nat) (figs : List OFig) :
    figVias (mergeSplit width figs) = lastVias (figVias figs) := by
  unfold mergeSplit figVias
  simp only
  rw [List.filterMap_append]
  have h1 : ∀ l : List DSeg, (l.map OFig.seg).filterMap (fun | .via v => some v | _ => none) = ([] : List OVia) := by
    intro l; induction l with
    | nil => rfl
    | cons x r ih => rw [List.map_cons]; exact ih
  have h2 : ∀ l : List OVia, (l.map OFig.via).filterMap (fun | .via v => some v | _ => none) = l := by
    intro l; induction l with
    | nil => rfl
    | cons x r ih => rw [List.map_cons]; exact congrArg (x :: ·) ih
  have hc : ∀ a b c d : List OVia, a = b → c = d → a ++ c = b ++ d := fun a b c d x y => by rw [x, y]
  exact hc _ _ _ _ (h1 _) (h2 _)

/-- Of the vias of a net at one place of one cut layer exactly one is written, the one assigned last; nothing else is
written as a via. -/
theorem c83_vias (width : Int → Nat) (figs : List OFig) :
    (∀ v, OFig.via v ∈ mergeSplit width figs → OFig.via v ∈ figs) ∧
    (∀ v, OFig.via v ∈ figs → ∃ u, OFig.via u ∈ mergeSplit width figs ∧ u.o = v.o ∧ u.cut = v.cut) ∧
    (figVias (mergeSplit width figs)).Pairwise (fun u v => ¬ (u.o = v.o ∧ u.cut = v.cut)) ∧
    (∀ l r v, figs = l ++ .via v :: r → (∀ u, OFig.via u ∈ r → ¬ (u.o = v.o ∧ u.cut = v.cut)) →
      OFig.via v ∈ mergeSplit width figs) := by
  have hkey : ∀ u v : OVia, u.key = v.key ↔ u.o = v.o ∧ u.cut = v.cut := by
    intro u v
    unfold OVia.key
    rw [Prod.mk.injEq, Prod.mk.injEq]
    constructor
    · rintro ⟨h1, h2, h3⟩
      refine ⟨?_, h3⟩
      cases hu : u.o; cases hv : v.o
      rw [hu, hv] at h1 h2
      simp only at h1 h2
      rw [h1, h2]
    · rintro ⟨h1, h2⟩
      rw [h1]; exact ⟨rfl, rfl, h2⟩
  refine ⟨?_, ?_, ?_, ?_⟩
  · intro v hv
    rw [via_mergeSplit, mem_lastVias] at hv
    exact (mem_figVias figs v).mp (List.mem_reverse.mp (List.mem_of_find?_eq_some hv))
  · intro v hv
    obtain ⟨u, e, _, hk⟩ := lastVias_pos (List.mem_map.mpr ⟨v, (mem_figVias figs v).mpr hv, rfl⟩)
    refine ⟨u, ?_, (hkey u v).mp hk⟩
    rw [via_mergeSplit, mem_lastVias, hk]
    exact e
  · rw [figVias_mergeSplit]
    unfold lastVias
    have hnd : (sortKeys lt3 ((figVias figs).map OVia.key)).Nodup := sortKeys_nodup keyLt_lt3 _
    rw [List.pairwise_filterMap]
    refine hnd.imp ?_
    intro a b hab u hu v hv hh
    have h1 := List.find?_some hu
    have h2 := List.find?_some hv
    rw [decide_eq_true_eq] at h1 h2
    exact hab (by rw [← h1, ← h2]; exact (hkey u v).mpr hh)
  · intro l r v e hr
    rw [via_mergeSplit, mem_lastVias]
    have : figVias figs = figVias l ++ v :: figVias r := by
      rw [e]; unfold figVias; rw [List.filterMap_append]; rfl
    rw [this, List.reverse_append, List.reverse_cons, List.append_assoc, List.find?_append]
    have hn : (figVias r).reverse.find? (fun u => decide (u.key = v.key)) = none := by
      rw [List.find?_eq_none]
      intro u hu
      rw [decide_eq_true_eq, hkey]
      exact hr u ((mem_figVias r u).mp (List.mem_reverse.mp hu))
    rw [hn]
    simp

/-- The written wires do not depend on the vias: a via in the inside of a wire never splits it. -/
theorem c83_vias_do_not_split (width : Int → Nat) (figs figs' : List OFig) (hok : OWiresOk figs)
    (he : figSegs figs = figSegs figs') : figSegs (mergeSplit width figs) = figSegs (mergeSplit width figs') := by
  have hok' : OWiresOk figs' := fun s hs => hok s ((mem_figSegs _ _).mp (by rw [he]; exact (mem_figSegs _ _).mpr hs))
  have hl : ∀ f : List OFig, longSegs f = (figSegs f).filter (fun s => decide (s.b ≠ s.e)) := by
    intro f
    induction f with
    | nil => rfl
    | cons x r ih =>
      cases x with
      | seg s =>
        rw [show figSegs (OFig.seg s :: r) = s :: figSegs r from rfl, List.filter_cons]
        by_cases h : s.b = s.e
        · have : longSegs (OFig.seg s :: r) = longSegs r := by unfold longSegs; simp [h]
          rw [this, ih]; simp [h]
        · have : longSegs (OFig.seg s :: r) = s :: longSegs r := by unfold longSegs; simp [h]
          rw [this, ih]; simp [h]
      | via v => exact ih
      | patch p => exact ih
  have hll : longSegs figs = longSegs figs' := by rw [hl, hl, he]
  rw [mergeSplit_eq width figs hok, mergeSplit_eq width figs' hok', figSegs_append, figSegs_append, figSegs_seg,
    figSegs_seg, figSegs_via, figSegs_via]
  unfold finalMap
  rw [hll]

/-! ### C80: writing and reading back -/

/-- the extension the reader gets for an end -/
def extTok (k : EndKind) (ext : Nat) : Int := if k = .extend then -1 else if k = .truncate then 0 else ext

theorem rdEnd_write (w : Nat) (k : EndKind) (ext : Nat)
    (h1 : k = .extend → ext = w / 2) (h2 : k = .truncate → ext = 0) (h3 : k = .variable → 0 < ext) :
    rdEnd w (extTok k ext) = (k, ext) := by
  cases k with
  | extend => simp [extTok, rdEnd, h1]
  | truncate => simp [extTok, rdEnd, h2]
  | «variable» =>
    have := h3 rfl
    unfold extTok
    rw [if_neg (by simp), if_neg (by simp)]
    unfold rdEnd
    rw [if_neg (by omega), if_neg (by omega)]
    simp

theorem rd_seg (T : DefTech) (s : DSeg) (hok : s.Ok) (hl : T.layerNum (T.layerName s.layer) = some s.layer)
    (hst : s.st.Plain (T.width s.layer)) : rdPath T s.net (writeFig T (.seg s)) = some ([s], []) := by
  obtain ⟨hw, b1, b2, b3, e1, e2, e3⟩ := hst
  obtain ⟨net, layer, b, e, st⟩ := s
  obtain ⟨bk, be, ek, ee, wd⟩ := st
  simp only at *
  have hsw : (decide (b.x > e.x) || decide (b.y > e.y)) = false := by
    unfold DSeg.Ok at hok
    simp only at hok
    have h1 : ¬ b.x > e.x := by omega
    have h2 : ¬ b.y > e.y := by omega
    simp [h1, h2]
  have hww : (if (0 : Nat) = 0 then T.width layer else 0) = T.width layer := if_pos rfl
  have hb := rdEnd_write (T.width layer) bk be b1 b2 b3
  have he := rdEnd_write (T.width layer) ek ee e1 e2 e3
  have ht : rdToks T {} (writeFig T (.seg ⟨net, layer, b, e, ⟨bk, be, ek, ee, wd⟩⟩)) =
      some { layer := T.layerName layer, beg := some b, fin := some e, begExt := extTok bk be, finExt := extTok ek ee } := by
    cases bk <;> cases ek <;> simp [writeFig, rdToks, rdTok, endTok, hl, extTok]
  unfold rdPath
  rw [ht]
  simp only [Option.bind_some, hl, Option.map_some, Bool.false_eq_true, if_false, rdSeg, hsw, Option.getD_some, if_true,
    hb, he, hw]

theorem rd_via (T : DefTech) (n : Nat) (v : OVia) (hl : T.layerNum (T.layerName v.low) = some v.low)
    (hv : T.viaDef v.name = some (v.low, v.cut)) : rdPath T n (writeFig T (.via v)) = some ([], [v]) := by
  simp [rdPath, writeFig, rdToks, rdTok, hl, hv]

theorem rd_patch (T : DefTech) (n : Nat) (p : DPatch) (hl : T.layerNum (T.layerName p.layer) = some p.layer) :
    rdPath T n (writeFig T (.patch p)) = some ([], []) := by
  simp [rdPath, writeFig, rdToks, rdTok, hl]

theorem rdNet_append (T : DefTech) (n : Nat) (a b : List (List PathTok)) (x y : List DSeg × List OVia)
    (ha : rdNet T n a = some x) (hb : rdNet T n b = some y) :
    rdNet T n (a ++ b) = some (x.1 ++ y.1, x.2 ++ y.2) := by
  induction a generalizing x with
  | nil => simp only [rdNet, Option.some.injEq] at ha; subst ha; simpa using hb
  | cons p r ih =>
    rw [List.cons_append]
    unfold rdNet at ha ⊢
    cases hp : rdPath T n p with
    | none => rw [hp] at ha; cases ha
    | some u =>
      rw [hp] at ha
      simp only [Option.bind_some] at ha ⊢
      cases hr : rdNet T n r with
      | none => rw [hr] at ha; cases ha
      | some z =>
        rw [hr] at ha
        simp only [Option.map_some, Option.some.injEq] at ha
        subst ha
        rw [ih z hr]
        simp

theorem rdNet_segs (T : DefTech) (n : Nat) (l : List DSeg)
    (h : ∀ s ∈ l, rdPath T n (writeFig T (.seg s)) = some ([s], [])) :
    rdNet T n ((l.map .seg).map (writeFig T)) = some (l, []) := by
  induction l with
  | nil => rfl
  | cons s r ih =>
    simp only [List.map_cons, rdNet]
    rw [h s List.mem_cons_self, ih (fun t ht => h t (List.mem_cons_of_mem _ ht))]
    rfl

theorem rdNet_vias (T : DefTech) (n : Nat) (l : List OVia)
    (h : ∀ s ∈ l, rdPath T n (writeFig T (.via s)) = some ([], [s])) :
    rdNet T n ((l.map .via).map (writeFig T)) = some ([], l) := by
  induction l with
  | nil => rfl
  | cons s r ih =>
    simp only [List.map_cons, rdNet]
    rw [h s List.mem_cons_self, ih (fun t ht => h t (List.mem_cons_of_mem _ ht))]
    rfl

theorem rdNet_patches (T : DefTech) (n : Nat) (l : List DPatch)
    (h : ∀ s ∈ l, rdPath T n (writeFig T (.patch s)) = some ([], [])) :
    rdNet T n ((l.map .patch).map (writeFig T)) = some ([], []) := by
  induction l with
  | nil => rfl
  | cons s r ih =>
    simp only [List.map_cons, rdNet]
    rw [h s List.mem_cons_self, ih (fun t ht => h t (List.mem_cons_of_mem _ ht))]
    rfl

theorem connFigs_net (T : DefTech) (isTA : Bool) (nets : List ONet)
    (hd : nets.Pairwise (fun a b => a.name ≠ b.name)) (n : ONet) (hn : n ∈ nets) :
    connFigs T isTA nets n.name = if isTA then mergeSplit T.width (netFigs isTA n) else netFigs isTA n := by
  have hf : nets.filter (fun m => m.name = n.name) = [n] := by
    induction nets with
    | nil => cases hn
    | cons m r ih =>
      rw [List.pairwise_cons] at hd
      rcases List.mem_cons.mp hn with e | e
      · subst e
        rw [List.filter_cons, if_pos (by simp)]
        congr 1
        rw [List.filter_eq_nil_iff]
        intro x hx
        have := hd.1 x hx
        simp only [decide_eq_true_eq]
        exact fun e => this e.symm
      · rw [List.filter_cons, if_neg (by simpa using hd.1 n e)]
        exact ih hd.2 e
  unfold connFigs
  simp only [hf, List.flatMap_cons, List.flatMap_nil, List.append_nil]

/-- The routes of a net written after detailed routing and read back are its wires and vias, unchanged and in order:
layer, ends, extensions, width. -/
theorem c80_round_trip (T : DefTech) (nets : List ONet) (hd : nets.Pairwise (fun a b => a.name ≠ b.name)) (n : ONet)
    (hn : n ∈ nets) (id : Nat)
    (hs : ∀ s ∈ n.shapes, s.Ok ∧ s.net = id ∧ s.st.Plain (T.width s.layer) ∧
      T.layerNum (T.layerName s.layer) = some s.layer)
    (hv : ∀ v ∈ n.vias, T.viaDef v.name = some (v.low, v.cut) ∧ T.layerNum (T.layerName v.low) = some v.low)
    (hp : ∀ p ∈ n.patches, T.layerNum (T.layerName p.layer) = some p.layer) :
    rdNet T id (writeNet T false nets n.name) = some (n.shapes, n.vias) := by
  unfold writeNet
  rw [connFigs_net T false nets hd n hn]
  simp only [Bool.false_eq_true, if_false, netFigs, List.map_append]
  have h1 := rdNet_segs T id n.shapes (fun s h => by
    obtain ⟨a, b, c, d⟩ := hs s h
    rw [← b]; exact rd_seg T s a d c)
  have h2 := rdNet_vias T id n.vias (fun v h => rd_via T id v (hv v h).2 (hv v h).1)
  have h3 := rdNet_patches T id n.patches (fun p h => rd_patch T id p (hp p h))
  have h := rdNet_append T id _ _ _ _ (rdNet_append T id _ _ _ _ h1 h2) h3
  rw [h]; simp

/-- The written routes of a net do not depend on the other nets. -/
theorem c80_own_routes (T : DefTech) (isTA : Bool) (nets nets' : List ONet)
    (hd : nets.Pairwise (fun a b => a.name ≠ b.name)) (hd' : nets'.Pairwise (fun a b => a.name ≠ b.name)) (n : ONet)
    (hn : n ∈ nets) (hn' : n ∈ nets') : writeNet T isTA nets n.name = writeNet T isTA nets' n.name := by
  unfold writeNet
  rw [connFigs_net T isTA nets hd n hn, connFigs_net T isTA nets' hd' n hn']

/-- The file of the track assignment read back has exactly the metal of the assigned wires, when these have the default
style of their layers. -/
theorem c82_file (T : DefTech) (nets : List ONet) (hd : nets.Pairwise (fun a b => a.name ≠ b.name)) (n : ONet)
    (hn : n ∈ nets) (id : Nat)
    (hs : ∀ s, OWire (netFigs true n) s → s.Ok ∧ s.b ≠ s.e ∧ s.net = id ∧ s.st = defStyle (T.width s.layer) ∧
      T.layerNum (T.layerName s.layer) = some s.layer)
    (hv : ∀ v, OFig.via v ∈ netFigs true n → T.viaDef v.name = some (v.low, v.cut) ∧
      T.layerNum (T.layerName v.low) = some v.low) :
    ∃ ws vs, rdNet T id (writeNet T true nets n.name) = some (ws, vs) ∧
      ∀ l p, (∃ s, OWire (netFigs true n) s ∧ s.layer = l ∧ s.MetalW s.st.width p) ↔
        ∃ w ∈ ws, w.layer = l ∧ w.MetalW w.st.width p := by
  have hok : OWiresOk (netFigs true n) := fun s h => (hs s h).1
  have hnet : ∀ s, OWire (netFigs true n) s → s.net = id := fun s h => (hs s h).2.2.1
  have hpl : PlainExt T.width (netFigs true n) := fun s h => by
    obtain ⟨_, h1, _, h2, _⟩ := hs s h
    rw [h2]; exact ⟨h1, rfl, rfl⟩
  have hk : ∀ s, OWire (netFigs true n) s → s.st.beginKind = .extend ∧ s.st.endKind = .extend := fun s h => by
    rw [(hs s h).2.2.2.1]; exact ⟨rfl, rfl⟩
  have hmetal := c82_metal T.width (netFigs true n) hok id hnet hpl hk
  -- what is read for a written wire
  let fix : DSeg → DSeg := fun s => { s with st := { s.st with width := T.width s.layer } }
  unfold writeNet
  rw [connFigs_net T true nets hd n hn]
  simp only [if_true]
  rw [mergeSplit_eq T.width _ hok, List.map_append]
  have hlay : ∀ k o, o ∈ finalMap T.width (netFigs true n) k → T.layerNum (T.layerName o.layer) = some o.layer := by
    intro k o ho
    have H := final_sub T.width (netFigs true n) hok id hnet k
    have hp := H.place o ho
    obtain ⟨s, hsk, _⟩ := (H.cov (o.b.a (keyH k)) 0 (by omega) (by omega)).mpr ⟨o, ho, Int.le_refl _, by omega⟩
    obtain ⟨h1, h2⟩ := (mem_keySegs _ _ _).mp hsk
    have e1 : s.layer = k.1 := by rw [← h2]; rfl
    rw [hp.1, ← e1]
    exact (hs s ((mem_longSegs _ _).mp h1).1).2.2.2.2
  have hread : ∀ o ∈ (segKeys (longSegs (netFigs true n))).flatMap (finalMap T.width (netFigs true n)),
      rdPath T id (writeFig T (.seg o)) = some ([fix o], []) := by
    intro o ho
    obtain ⟨k, _, hk'⟩ := List.mem_flatMap.mp ho
    have hw : OWire (mergeSplit T.width (netFigs true n)) o :=
      (wire_mergeSplit T.width _ hok id hnet o).mpr ⟨k, hk'⟩
    obtain ⟨hoo, _, hon⟩ := c81_wires_ok T.width _ hok id hnet o hw
    have hx := out_ext T.width _ hok id hnet hpl hk k o hk'
    have hl := ((final_sub T.width (netFigs true n) hok id hnet k).place o hk').1
    rw [← hl] at hx
    have e : writeFig T (.seg o) = writeFig T (.seg (fix o)) := rfl
    rw [e, ← hon]
    refine rd_seg T (fix o) hoo (hlay k o hk') ?_
    obtain ⟨x1, x2, x3, x4⟩ := hx
    have f1 : (fix o).st.beginExt = o.st.beginExt := rfl
    have f2 : (fix o).st.beginKind = o.st.beginKind := rfl
    have f3 : (fix o).st.endExt = o.st.endExt := rfl
    have f4 : (fix o).st.endKind = o.st.endKind := rfl
    have f5 : (fix o).layer = o.layer := rfl
    unfold SegStyle.Plain
    rw [f1, f2, f3, f4, f5]
    refine ⟨rfl, fun _ => x1, ?_, ?_, fun _ => x2, ?_, ?_⟩
    · intro h
      rcases x3 with h' | ⟨_, h'⟩
      · rw [h] at h'; cases h'
      · rw [x1]; exact h'
    · intro h
      rcases x3 with h' | ⟨h', _⟩ <;> rw [h] at h' <;> cases h'
    · intro h
      rcases x4 with h' | ⟨_, h'⟩
      · rw [h] at h'; cases h'
      · rw [x2]; exact h'
    · intro h
      rcases x4 with h' | ⟨h', _⟩ <;> rw [h] at h' <;> cases h'
  have hsegs : ∀ l : List DSeg, (∀ o ∈ l, rdPath T id (writeFig T (.seg o)) = some ([fix o], [])) →
      rdNet T id ((l.map .seg).map (writeFig T)) = some (l.map fix, []) := by
    intro l hl
    induction l with
    | nil => rfl
    | cons s r ih =>
      simp only [List.map_cons, rdNet]
      rw [hl s List.mem_cons_self, ih (fun t ht => hl t (List.mem_cons_of_mem _ ht))]
      rfl
  have hvias := rdNet_vias T id (lastVias (figVias (netFigs true n))) (fun v h => by
    have : OFig.via v ∈ netFigs true n := (c83_vias T.width _).1 v ((via_mergeSplit T.width _ v).mpr h)
    exact rd_via T id v (hv v this).2 (hv v this).1)
  refine ⟨_, _, rdNet_append T id _ _ _ _ (hsegs _ hread) hvias, ?_⟩
  intro l p
  have h1 : (∃ s, OWire (netFigs true n) s ∧ s.layer = l ∧ s.MetalW s.st.width p) ↔
      (∃ s, OWire (netFigs true n) s ∧ s.layer = l ∧ s.MetalW (T.width l) p) := by
    constructor
    · rintro ⟨s, g1, g2, g3⟩
      refine ⟨s, g1, g2, ?_⟩
      rw [(hs s g1).2.2.2.1, g2] at g3
      exact g3
    · rintro ⟨s, g1, g2, g3⟩
      refine ⟨s, g1, g2, ?_⟩
      rw [(hs s g1).2.2.2.1, g2]
      exact g3
  rw [h1, hmetal l p]
  constructor
  · rintro ⟨o, g1, g2, g3⟩
    have ho : o ∈ (segKeys (longSegs (netFigs true n))).flatMap (finalMap T.width (netFigs true n)) := by
      have := (mem_figSegs _ _).mpr g1
      rw [mergeSplit_eq T.width _ hok, figSegs_append, figSegs_seg, figSegs_via, List.append_nil] at this
      exact this
    refine ⟨fix o, ?_, g2, ?_⟩
    · simp only [List.append_nil]
      exact List.mem_map.mpr ⟨o, ho, rfl⟩
    · show o.MetalW (T.width o.layer) p
      rw [g2]; exact g3
  · rintro ⟨w, hw, g2, g3⟩
    simp only [List.append_nil] at hw
    obtain ⟨o, ho, rfl⟩ := List.mem_map.mp hw
    refine ⟨o, ?_, g2, ?_⟩
    · rw [← mem_figSegs, mergeSplit_eq T.width _ hok, figSegs_append, figSegs_seg, figSegs_via, List.append_nil]
      exact ho
    · have g3' : o.MetalW (T.width o.layer) p := g3
      have g2' : o.layer = l := g2
      rw [g2'] at g3'
      exact g3'

end TR
