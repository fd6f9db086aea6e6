import Verif.Def.File
/-! # C84: wires read from a file; examples and cases where the code falls short -/
namespace TR

/-! ### C84 -/

/-- A wire of two points is read the same in both directions: its ends are in order and each keeps its extension. -/
theorem c84_direction (T : DefTech) (id : Nat) (l : Int) (hl : T.layerNum (T.layerName l) = some l) (p q : Point)
    (hpq : p ≠ q) (hax : p.x = q.x ∨ p.y = q.y) (kp kq : EndKind) (ep eq : Nat) (h0 : kp = .variable → 0 < ep)
    (h1 : kq = .variable → 0 < eq) :
    ∃ s, rdPath T id [.layer (T.layerName l), endTok kp ep p, endTok kq eq q] = some ([s], []) ∧
      rdPath T id [.layer (T.layerName l), endTok kq eq q, endTok kp ep p] = some ([s], []) ∧
      s.Ok ∧ s.layer = l ∧ s.net = id ∧ s.st.width = T.width l ∧
      ((s.b = p ∧ s.e = q ∧ s.st.beginKind = kp ∧ s.st.endKind = kq ∧
          s.st.beginExt = (if kp = .extend then T.width l / 2 else if kp = .truncate then 0 else ep) ∧
          s.st.endExt = (if kq = .extend then T.width l / 2 else if kq = .truncate then 0 else eq)) ∨
       (s.b = q ∧ s.e = p ∧ s.st.beginKind = kq ∧ s.st.endKind = kp ∧
          s.st.beginExt = (if kq = .extend then T.width l / 2 else if kq = .truncate then 0 else eq) ∧
          s.st.endExt = (if kp = .extend then T.width l / 2 else if kp = .truncate then 0 else ep))) := by
  have htok : ∀ (k k' : EndKind) (e e' : Nat) (a b : Point),
      rdToks T {} [.layer (T.layerName l), endTok k e a, endTok k' e' b] =
      some { layer := T.layerName l, beg := some a, fin := some b, begExt := extTok k e, finExt := extTok k' e' } := by
    intro k k' e e' a b
    cases k <;> cases k' <;> simp [rdToks, rdTok, endTok, hl, extTok]
  have hrd : ∀ (k k' : EndKind) (e e' : Nat) (a b : Point),
      rdPath T id [.layer (T.layerName l), endTok k e a, endTok k' e' b] =
      some ([rdSeg id l (T.width l) { layer := T.layerName l, beg := some a, fin := some b, begExt := extTok k e, finExt := extTok k' e' } a b], []) := by
    intro k k' e e' a b
    unfold rdPath
    rw [htok]
    simp only [Option.bind_some, hl, Option.map_some, Bool.false_eq_true, if_false, Option.getD_some]
  have hend : ∀ (k : EndKind) (e : Nat), (k = .variable → 0 < e) → rdEnd (T.width l) (extTok k e) =
      (k, if k = .extend then T.width l / 2 else if k = .truncate then 0 else e) := by
    intro k e h
    cases k with
    | extend => simp [extTok, rdEnd]
    | truncate => simp [extTok, rdEnd]
    | «variable» =>
      have := h rfl
      unfold extTok
      rw [if_neg (by simp), if_neg (by simp)]
      unfold rdEnd
      rw [if_neg (by omega), if_neg (by omega)]
      simp
  have hne : p.x ≠ q.x ∨ p.y ≠ q.y := by
    by_cases h : p.x = q.x
    · right
      intro h'
      apply hpq
      cases p; cases q
      simp only at h h'
      rw [h, h']
    · exact Or.inl h
  rw [hrd, hrd]
  by_cases hsw : p.x > q.x ∨ p.y > q.y
  · have e1 : (decide (p.x > q.x) || decide (p.y > q.y)) = true := by simpa using hsw
    have e2 : (decide (q.x > p.x) || decide (q.y > p.y)) = false := by
      have h2 : ¬ q.x > p.x := by omega
      have h3 : ¬ q.y > p.y := by omega
      simp [h2, h3]
    simp only [rdSeg, e1, e2, if_true, Bool.false_eq_true, if_false, hend kp ep h0, hend kq eq h1]
    refine ⟨_, rfl, rfl, ?_, rfl, rfl, rfl, Or.inr ⟨rfl, rfl, rfl, rfl, rfl, rfl⟩⟩
    unfold DSeg.Ok
    simp only
    omega
  · have e1 : (decide (p.x > q.x) || decide (p.y > q.y)) = false := by
      have h2 : ¬ p.x > q.x := by omega
      have h3 : ¬ p.y > q.y := by omega
      simp [h2, h3]
    have e2 : (decide (q.x > p.x) || decide (q.y > p.y)) = true := by
      have : q.x > p.x ∨ q.y > p.y := by omega
      simpa using this
    simp only [rdSeg, e1, e2, if_true, Bool.false_eq_true, if_false, hend kp ep h0, hend kq eq h1]
    refine ⟨_, rfl, rfl, ?_, rfl, rfl, rfl, Or.inl ⟨rfl, rfl, rfl, rfl, rfl, rfl⟩⟩
    unfold DSeg.Ok
    simp only
    omega

/-- A via of a path is read at the last point of the path. -/
theorem c84_via (T : DefTech) (id : Nat) (l : Int) (hl : T.layerNum (T.layerName l) = some l) (p q : Point)
    (v : OVia) (hv : T.viaDef v.name = some (v.low, v.cut)) :
    (∃ s, rdPath T id [.layer (T.layerName l), .point p.x p.y, .point q.x q.y, .via v.name] = some ([s], [{ v with o := q }])) ∧
    rdPath T id [.layer (T.layerName l), .point p.x p.y, .via v.name] = some ([], [{ v with o := p }]) := by
  constructor
  · simp [rdPath, rdToks, rdTok, hl, hv]
  · simp [rdPath, rdToks, rdTok, hl, hv]

theorem rdToks_points (T : DefTech) (b : Point) (pts : List Point) (st : RdSt) (hb : st.beg = some b) :
    rdToks T st (pts.map (fun p => PathTok.point p.x p.y)) =
      some { st with fin := (pts.getLast?).or st.fin } := by
  induction pts generalizing st with
  | nil => simp [rdToks]
  | cons p r ih =>
    rw [List.map_cons]
    unfold rdToks
    simp only [rdTok, hb, Option.bind_some]
    rw [ih _ rfl]
    cases r with
    | nil => simp
    | cons q r =>
      cases h : (q :: r).getLast? with
      | none => simp at h
      | some x => rw [List.getLast?_cons_cons, h]; rfl

/-- Of a path with more points only the first and the last are kept: it is read as one wire between them. -/
theorem c84_first_last (T : DefTech) (id : Nat) (l : Int) (hl : T.layerNum (T.layerName l) = some l) (p q : Point)
    (mid : List Point) :
    ∃ s, rdPath T id (.layer (T.layerName l) :: (p :: mid ++ [q]).map (fun a => PathTok.point a.x a.y)) = some ([s], []) ∧
      ((s.b = p ∧ s.e = q) ∨ (s.b = q ∧ s.e = p)) := by
  have h : rdToks T {} (.layer (T.layerName l) :: (p :: mid ++ [q]).map (fun a => PathTok.point a.x a.y)) =
      some { layer := T.layerName l, beg := some p, fin := some q } := by
    rw [List.cons_append, List.map_cons]
    unfold rdToks
    simp only [rdTok, hl, Option.isSome_some, if_true, Option.bind_some]
    unfold rdToks
    simp only [rdTok, Option.bind_some]
    rw [rdToks_points T p (mid ++ [q]) _ rfl]
    simp
  unfold rdPath
  rw [h]
  simp only [Option.bind_some, hl, Option.map_some, Bool.false_eq_true, if_false, Option.getD_some]
  refine ⟨_, rfl, ?_⟩
  unfold rdSeg
  simp only
  by_cases hs : (decide (p.x > q.x) || decide (p.y > q.y)) = true
  · rw [if_pos hs, if_pos hs]; exact Or.inr ⟨rfl, rfl⟩
  · rw [if_neg hs, if_neg hs]; exact Or.inl ⟨rfl, rfl⟩

/-- so a path with a bend is read as a slanted wire, and the corner is not on it -/
theorem c84_bend_lost (T : DefTech) (id : Nat) (l : Int) (hl : T.layerNum (T.layerName l) = some l) :
    ∃ s, rdPath T id [.layer (T.layerName l), .point 0 0, .point 10 0, .point 10 10] = some ([s], []) ∧ ¬ s.Ok := by
  refine ⟨_, by simp [rdPath, rdToks, rdTok, hl]; rfl, ?_⟩
  unfold DSeg.Ok rdSeg
  simp

/-! ### a concrete net -/

def exDefTech : DefTech :=
  ⟨fun l => if l = 2 then "M1" else if l = 4 then "M2" else "M", fun n => if n = "M1" then some 2 else if n = "M2" then some 4 else none,
   fun _ => 4, fun n => if n = "V12" then some (2, 3) else none⟩

def exSegD (l x0 y0 x1 y1 : Int) : DSeg := ⟨0, l, ⟨x0, y0⟩, ⟨x1, y1⟩, defStyle 4⟩

/-- two wires that overlap, one that touches, one that crosses, two vias at one place -/
def exFigs : List OFig :=
  [.seg (exSegD 2 0 0 10 0), .seg (exSegD 2 5 0 20 0), .seg (exSegD 2 20 0 30 0), .seg (exSegD 2 12 (-5) 12 5),
   .via ⟨"V12", 2, 3, ⟨30, 0⟩⟩, .seg (exSegD 4 30 0 30 40), .via ⟨"V12B", 2, 3, ⟨30, 0⟩⟩]

set_option maxRecDepth 100000 in
theorem exFigs_ok : (∀ s ∈ figSegs exFigs, (s.b.x = s.e.x ∧ s.b.y ≤ s.e.y) ∨ (s.b.y = s.e.y ∧ s.b.x ≤ s.e.x)) ∧
    ∀ s ∈ figSegs exFigs, s.net = 0 ∧ s.b ≠ s.e ∧ s.st = defStyle 4 := by decide

example : OWiresOk exFigs := fun s hs => exFigs_ok.1 s ((mem_figSegs _ _).mpr hs)
example : ∀ s, OWire exFigs s → s.net = 0 := fun s hs => (exFigs_ok.2 s ((mem_figSegs _ _).mpr hs)).1
example : PlainExt (fun _ => 4) exFigs := fun s hs => by
  have h := exFigs_ok.2 s ((mem_figSegs _ _).mpr hs)
  rw [h.2.2]; exact ⟨h.2.1, rfl, rfl⟩

/-- merged into one wire on layer 2 and split at the crossing; one via is left -/
theorem exFigs_written : (figSegs (mergeSplit (fun _ => 4) exFigs)).map (fun s => (s.layer, s.b, s.e)) =
    [(2, ⟨12, -5⟩, ⟨12, 0⟩), (2, ⟨12, 0⟩, ⟨12, 5⟩), (2, ⟨0, 0⟩, ⟨12, 0⟩), (2, ⟨12, 0⟩, ⟨30, 0⟩), (4, ⟨30, 0⟩, ⟨30, 40⟩)] ∧
    (figVias (mergeSplit (fun _ => 4) exFigs)).map (fun v => v.name) = ["V12B"] := by decide +kernel

/-- a detailed routed net for the round trip -/
def exONet : ONet := ⟨"n1", [exSegD 2 0 0 10 0, { exSegD 4 10 0 10 8 with st := ⟨.variable, 3, .truncate, 0, 4⟩ }],
  [⟨"V12", 2, 3, ⟨10, 0⟩⟩], [⟨0, 2, ⟨0, 0⟩, Box.mk4 (-2) (-2) 5 2⟩], []⟩

example : rdNet exDefTech 0 (writeNet exDefTech false [exONet] "n1") = some (exONet.shapes, exONet.vias) := by
  refine c80_round_trip exDefTech [exONet] (List.pairwise_singleton _ _) exONet List.mem_cons_self 0 ?_ ?_ ?_
  · intro s hs
    have : s = exSegD 2 0 0 10 0 ∨ s = { exSegD 4 10 0 10 8 with st := ⟨.variable, 3, .truncate, 0, 4⟩ } := by
      simpa [exONet] using hs
    unfold DSeg.Ok SegStyle.Plain
    rcases this with e | e <;> subst e <;> simp [exSegD, defStyle, exDefTech]
  · intro v hv
    have : v = ⟨"V12", 2, 3, ⟨10, 0⟩⟩ := by simpa [exONet] using hv
    subst this
    simp [exDefTech]
  · intro v hv
    have : v = ⟨0, 2, ⟨0, 0⟩, Box.mk4 (-2) (-2) 5 2⟩ := by simpa [exONet] using hv
    subst this
    simp [exDefTech]

/-- a net after track assignment with default wires, for the metal of the file -/
def exTANet : ONet := ⟨"n2", [], [], [],
  [[.seg (exSegD 2 0 0 10 0), .seg (exSegD 2 5 0 20 0), .via ⟨"V12", 2, 3, ⟨20, 0⟩⟩], [.seg (exSegD 4 20 0 20 9)]]⟩

example : ∃ ws vs, rdNet exDefTech 0 (writeNet exDefTech true [exTANet] "n2") = some (ws, vs) ∧
    ∀ l p, (∃ s, OWire (netFigs true exTANet) s ∧ s.layer = l ∧ s.MetalW s.st.width p) ↔
      ∃ w ∈ ws, w.layer = l ∧ w.MetalW w.st.width p := by
  refine c82_file exDefTech [exTANet] (List.pairwise_singleton _ _) exTANet List.mem_cons_self 0 ?_ ?_
  · intro s hs
    have : s = exSegD 2 0 0 10 0 ∨ s = exSegD 2 5 0 20 0 ∨ s = exSegD 4 20 0 20 9 := by
      simpa [exTANet, netFigs, OWire] using hs
    unfold DSeg.Ok
    rcases this with e | e | e <;> subst e <;> simp [exSegD, defStyle, exDefTech]
  · intro v hv
    have : v = ⟨"V12", 2, 3, ⟨20, 0⟩⟩ := by simpa [exTANet, netFigs] using hv
    subst this
    simp [exDefTech]

/-! ### where the code falls short -/

/-- An extension of an end in the inside of a merged wire is lost even where it went beyond its end. -/
theorem c82_extension_lost : ∃ figs : List OFig, OWiresOk figs ∧ (∀ s, OWire figs s → s.net = 0 ∧ s.b ≠ s.e) ∧
    ∃ s p, OWire figs s ∧ s.MetalW 4 p ∧ ∀ o, OWire (mergeSplit (fun _ => 4) figs) o → ¬ o.MetalW 4 p := by
  let a : DSeg := ⟨0, 2, ⟨0, 0⟩, ⟨10, 0⟩, ⟨.extend, 2, .variable, 8, 4⟩⟩
  let b : DSeg := ⟨0, 2, ⟨8, 0⟩, ⟨12, 0⟩, ⟨.extend, 2, .extend, 2, 4⟩⟩
  have hout : figSegs (mergeSplit (fun _ => 4) [.seg a, .seg b]) =
      [⟨0, 2, ⟨0, 0⟩, ⟨12, 0⟩, ⟨.extend, 2, .extend, 2, 0⟩⟩] := by decide +kernel
  have hin : ∀ s, OWire [.seg a, .seg b] s → s = a ∨ s = b := by
    intro s hs
    unfold OWire at hs
    simpa using hs
  refine ⟨[.seg a, .seg b], ?_, ?_, a, ⟨17, 0⟩, ?_, ?_, ?_⟩
  · intro s hs
    rcases hin s hs with e | e <;> subst e <;> unfold DSeg.Ok <;> decide
  · intro s hs
    rcases hin s hs with e | e <;> subst e <;> decide
  · unfold OWire; simp
  · unfold DSeg.MetalW; decide
  · intro o ho
    rw [← mem_figSegs, hout] at ho
    rw [List.mem_singleton] at ho
    subst ho
    unfold DSeg.MetalW; decide

/-- A wire of length zero is not written, although its extensions make it metal. -/
theorem c82_point_wire_lost : ∃ s : DSeg, s.Ok ∧ s.MetalW 4 ⟨1, 1⟩ ∧ mergeSplit (fun _ => 4) [.seg s] = [] := by
  refine ⟨exSegD 2 0 0 0 0, ?_, ?_, ?_⟩
  · unfold DSeg.Ok; decide
  · unfold DSeg.MetalW; decide
  · decide +kernel

/-- Not every crossing is split: the first pair of wires of the two tracks may be split although the wires do not
cross, and then the crossing is left in the inside of a wire. -/
theorem c83_crossing_missed : ∃ figs : List OFig, OWiresOk figs ∧
    ∃ s t, OWire (mergeSplit (fun _ => 4) figs) s ∧ OWire (mergeSplit (fun _ => 4) figs) t ∧ s.layer = t.layer ∧
      ∃ p, s.On p ∧ t.On p ∧ p = s.b ∧ p ≠ t.b ∧ p ≠ t.e := by
  let a := exSegD 2 (-20) 5 (-10) 5
  let b := exSegD 2 0 5 10 5
  let c := exSegD 2 5 0 5 10
  have hin : ∀ s, OWire [.seg a, .seg b, .seg c] s → s = a ∨ s = b ∨ s = c := by
    intro s hs
    unfold OWire at hs
    simpa using hs
  have hout : (⟨0, 2, ⟨5, 5⟩, ⟨5, 10⟩, ⟨.extend, 2, .extend, 2, 0⟩⟩ : DSeg) ∈ figSegs (mergeSplit (fun _ => 4) [.seg a, .seg b, .seg c]) ∧
      (⟨0, 2, ⟨0, 5⟩, ⟨10, 5⟩, ⟨.extend, 2, .extend, 2, 0⟩⟩ : DSeg) ∈ figSegs (mergeSplit (fun _ => 4) [.seg a, .seg b, .seg c]) := by decide +kernel
  refine ⟨_, ?_, _, _, (mem_figSegs _ _).mp hout.1, (mem_figSegs _ _).mp hout.2, rfl, ⟨5, 5⟩, ?_, ?_, rfl, ?_, ?_⟩
  · intro s hs
    rcases hin s hs with e | e | e <;> subst e <;> unfold DSeg.Ok <;> decide
  · unfold DSeg.On; decide
  · unfold DSeg.On; decide
  · decide
  · decide

end TR
