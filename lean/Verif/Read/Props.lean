import Verif.Read.Tracks
/-! # Properties C116, C117: the design that is read is the design of the file -/
namespace TR

theorem useKind_is (u : Option String) (k : UseKind) : useKind u = some k ↔ UseIs u k := by
  constructor
  · intro h
    cases u with
    | none => simp only [useKind, Option.some.injEq] at h; subst h; exact .absent
    | some s =>
      unfold useKind at h
      dsimp only at h
      split at h
      · rename_i e; subst e; simp only [Option.some.injEq] at h; subst h; exact .signal
      · split at h
        · rename_i e; subst e; simp only [Option.some.injEq] at h; subst h; exact .clock
        · split at h
          · rename_i e; subst e; simp only [Option.some.injEq] at h; subst h; exact .power
          · split at h
            · rename_i e; subst e; simp only [Option.some.injEq] at h; subst h; exact .ground
            · cases h
  · intro h
    cases h <;> decide

/-! ### C116: connections -/

/-- A net has exactly the pins that the net of the file with its number names. -/
theorem c116_members (E : REnv) (vs : List RViaDef) (rs : List DefRec) (B : RBlock)
    (h : readDesign E vs rs = some B) (N : RNet) (hN : N ∈ B.allNets) (r : PinRef) :
    r ∈ N.pins ↔ NamedBy E.lib rs N.id r := by
  have hi := netInv E vs rs B h
  rcases List.mem_append.1 hN with hN | hN
  · obtain ⟨n, _, _, hn⟩ := hi.nets N hN; exact hn.pins r
  · obtain ⟨n, _, _, hn⟩ := hi.snets N hN; exact hn.pins r

/-- A pin knows the last net of the file that names it. -/
theorem c116_back (E : REnv) (vs : List RViaDef) (rs : List DefRec) (B : RBlock)
    (h : readDesign E vs rs = some B) (r : PinRef) (j : Nat) :
    B.pinNet r = some j ↔ NamedBy E.lib rs j r ∧ ∀ k, j < k → ¬ NamedBy E.lib rs k r :=
  (netInv E vs rs B h).back r j

theorem exists_last (P : Nat → Prop) (n : Nat) (hlt : ∀ j, P j → j < n) (h : ∃ j, P j) :
    ∃ j, P j ∧ ∀ k, j < k → ¬ P k := by
  induction n with
  | zero => obtain ⟨j, hj⟩ := h; have := hlt j hj; omega
  | succ n ih =>
    by_cases hn : P n
    · exact ⟨n, hn, fun k hk hp => by have := hlt k hp; omega⟩
    · refine ih ?_
      intro j hj
      have := hlt j hj
      rcases Nat.lt_or_ge j n with h1 | h1
      · exact h1
      · have e : j = n := by omega
        subst e; exact absurd hj hn

/-- A pin knows no net exactly if no net of the file names it. -/
theorem c116_unconnected (E : REnv) (vs : List RViaDef) (rs : List DefRec) (B : RBlock)
    (h : readDesign E vs rs = some B) (r : PinRef) :
    B.pinNet r = none ↔ ∀ j, ¬ NamedBy E.lib rs j r := by
  constructor
  · intro hn j hj
    obtain ⟨k, hk⟩ := exists_last (fun j => NamedBy E.lib rs j r) _ (fun j hj => namedBy_lt hj) ⟨j, hj⟩
    rw [(c116_back E vs rs B h r k).2 hk] at hn; cases hn
  · intro hn
    cases hb : B.pinNet r with
    | none => rfl
    | some j => exact absurd ((c116_back E vs rs B h r j).1 hb).1 (hn j)

/-- If no pin is named by two nets, nets and pins agree: a net lists a pin exactly if the pin knows the net. -/
theorem c116_agree (E : REnv) (vs : List RViaDef) (rs : List DefRec) (B : RBlock)
    (h : readDesign E vs rs = some B)
    (once : ∀ j k r, NamedBy E.lib rs j r → NamedBy E.lib rs k r → j = k) (N : RNet) (hN : N ∈ B.allNets)
    (r : PinRef) : r ∈ N.pins ↔ B.pinNet r = some N.id := by
  rw [c116_members E vs rs B h N hN, c116_back E vs rs B h]
  constructor
  · intro hr
    exact ⟨hr, fun k hk hn => by have := once _ _ _ hr hn; omega⟩
  · exact And.left

namespace ReadEx
def inv : RCell := ⟨"INV", [lefBoundary ⟨0, 0⟩ ⟨10, 20⟩],
  [⟨"A", .normal, [[.rect 2 (Box.mk4 1 1 3 3)]]⟩, ⟨"Y", .normal, [[.rect 2 (Box.mk4 6 1 8 3)], [.poly 2 [⟨6, 5⟩, ⟨8, 5⟩, ⟨8, 7⟩]]]⟩],
  [[.rect 4 (Box.mk4 0 8 10 9)]]⟩
def env : REnv where
  layerNum n := if n = "M1" then some 2 else if n = "V1" then some 3 else if n = "M2" then some 4 else none
  layerName l := if l = 2 then "M1" else if l = 3 then "V1" else "M2"
  width _ := 2
  lib := [inv]
def net (nm : String) (cs : List (String × String)) : DefRec := .net ⟨false, nm, cs, [], none⟩
def file : List DefRec :=
  [.tracks ⟨"X", "M2", 5, 10, 10⟩, .comp ⟨"u1", "INV", ⟨0, 0⟩, 0⟩, .comp ⟨"u2", "INV", ⟨40, 0⟩, 2⟩,
   .pin ⟨"in", some "SIGNAL", false, [("M1", 0, 0, 2, 2)], [], ⟨5, 50⟩, 0⟩,
   .blk ⟨some "M2", false, false, [(0, 30, 5, 35)]⟩,
   net "a" [("PIN", "in"), ("u1", "A")], net "b" [("u1", "Y"), ("u2", "A")],
   .net ⟨true, "vdd", [], [[.layer "M2", .width 4, .shape, .point 0 100, .point 50 100]], some "POWER"⟩]
/-- one pin in two nets -/
def twice : List DefRec := [.comp ⟨"u1", "INV", ⟨0, 0⟩, 0⟩, net "a" [("u1", "A")], net "b" [("u1", "A")]]
end ReadEx

example : (readDesign ReadEx.env [] ReadEx.file).map (fun B => (B.allNets.map RNet.pins, B.pinNet (.cell 1 0), B.pinNet (.cell 1 1))) =
    some ([[.top 0, .cell 0 0], [.cell 0 1, .cell 1 0], []], some 1, none) := by decide +kernel

/-- The code does not notice a pin that two nets name: both list it, but it knows only the second. -/
theorem c116_twice : ∃ (E : REnv) (rs : List DefRec) (B : RBlock) (N : RNet) (r : PinRef),
    readDesign E [] rs = some B ∧ N ∈ B.allNets ∧ r ∈ N.pins ∧ B.pinNet r ≠ some N.id := by
  have h : (readDesign ReadEx.env [] ReadEx.twice).map (fun B =>
      (B.allNets.map (fun N => (N.id, N.pins)), B.pinNet (.cell 0 0))) =
      some ([(0, [.cell 0 0]), (1, [.cell 0 0])], some 1) := by decide +kernel
  rw [Option.map_eq_some_iff] at h
  obtain ⟨B, hB, h⟩ := h
  rw [Prod.mk.injEq] at h
  have hm : ((0, [PinRef.cell 0 0]) : Nat × List PinRef) ∈ B.allNets.map (fun N => (N.id, N.pins)) := by
    rw [h.1]; exact List.mem_cons_self
  obtain ⟨N, hN, e⟩ := List.mem_map.1 hm
  rw [Prod.mk.injEq] at e
  refine ⟨_, _, B, N, .cell 0 0, hB, hN, by rw [e.2]; exact List.mem_cons_self, ?_⟩
  rw [h.2, e.1]; decide

/-! ### C117: every object of the file, once -/

/-- The components, in the order of the file, with their names, places, orientations and cells; their ids are their
positions and no two have one name. -/
theorem c117_components (E : REnv) (vs : List RViaDef) (rs : List DefRec) (B : RBlock)
    (h : readDesign E vs rs = some B) :
    B.insts.length = (compsOf rs).length ∧
    (∀ (i : Nat) (I : RInst) (c : DefComp), B.insts[i]? = some I → (compsOf rs)[i]? = some c →
      I.id = i ∧ I.name = c.id ∧ I.org = c.org ∧ I.ori = orientOf c.ori ∧ CellIs E.lib c.cell I.cell) ∧
    (B.insts.map RInst.name).Nodup := by
  have hp := placeInv E vs rs B h
  refine ⟨hp.insts.1, ?_, hp.names⟩
  intro i I c hI hc
  obtain ⟨a, b, c, d, e⟩ := hp.insts.2 i I c hI hc
  exact ⟨a, b, c, d, e⟩

/-- The pins of the design, in the order of the file, with their shapes moved to their places. -/
theorem c117_pins (E : REnv) (vs : List RViaDef) (rs : List DefRec) (B : RBlock)
    (h : readDesign E vs rs = some B) :
    B.pins.length = (topPinsOf rs).length ∧
    (∀ (i : Nat) (P : TopPin) (p : DefPin), B.pins[i]? = some P → (topPinsOf rs)[i]? = some p →
      P.name = p.name ∧ UseIs p.use P.use ∧
      (∀ l b, PinFig.rect l b ∈ P.figs ↔ ∃ r ∈ p.rects, E.layerNum r.1 = some l ∧
        b = (Box.mk4 r.2.1 r.2.2.1 r.2.2.2.1 r.2.2.2.2).transform ⟨p.org.x, p.org.y, orientOf p.ori⟩) ∧
      (∀ l q, PinFig.poly l q ∈ P.figs ↔ ∃ r ∈ p.polys, E.layerNum r.1 = some l ∧
        q = r.2.map (Point.transform · ⟨p.org.x, p.org.y, orientOf p.ori⟩))) := by
  have hp := placeInv E vs rs B h
  refine ⟨hp.pins.1, ?_⟩
  intro i P p hP hq
  obtain ⟨a, b, c, d⟩ := hp.pins.2 i P p hP hq
  exact ⟨a, (useKind_is _ _).1 b, c, d⟩

/-- The nets: every net of the file is kept once, under its number, with its name and use, among the special or
among the ordinary nets. -/
theorem c117_nets (E : REnv) (vs : List RViaDef) (rs : List DefRec) (B : RBlock)
    (h : readDesign E vs rs = some B) :
    (∀ N ∈ B.nets, ∃ n, (netsOf rs)[N.id]? = some n ∧ n.special = false ∧ N.name = n.name ∧ UseIs n.use N.use) ∧
    (∀ N ∈ B.snets, ∃ n, (netsOf rs)[N.id]? = some n ∧ n.special = true ∧ N.name = n.name ∧ UseIs n.use N.use) ∧
    (∀ (j : Nat) (n : DefNet), (netsOf rs)[j]? = some n → ∃ N ∈ B.allNets, N.id = j) ∧
    (B.allNets.map RNet.id).Nodup := by
  have hi := netInv E vs rs B h
  refine ⟨?_, ?_, ?_, ?_⟩
  · intro N hN
    obtain ⟨n, a, b, c⟩ := hi.nets N hN
    exact ⟨n, a, b, c.name, (useKind_is _ _).1 c.use⟩
  · intro N hN
    obtain ⟨n, a, b, c⟩ := hi.snets N hN
    exact ⟨n, a, b, c.name, (useKind_is _ _).1 c.use⟩
  · intro j n hj
    obtain ⟨N, hN, hm⟩ := hi.all j n hj
    refine ⟨N, ?_, hN⟩
    unfold RBlock.allNets
    split at hm
    · exact List.mem_append_right _ hm
    · exact List.mem_append_left _ hm
  · unfold RBlock.allNets
    rw [List.map_append, List.nodup_append]
    refine ⟨?_, ?_, ?_⟩
    · exact (List.pairwise_map.2 (hi.ordN.imp (fun h => by omega)))
    · exact (List.pairwise_map.2 (hi.ordS.imp (fun h => by omega)))
    · intro a ha b hb e
      obtain ⟨N, hN, rfl⟩ := List.mem_map.1 ha
      obtain ⟨M, hM, hb⟩ := List.mem_map.1 hb
      obtain ⟨n, h1, h2, _⟩ := hi.nets N hN
      obtain ⟨m, h3, h4, _⟩ := hi.snets M hM
      rw [hb, ← e, h1] at h3
      simp only [Option.some.injEq] at h3
      rw [← h3, h2] at h4; cases h4

/-- The track statements, in the order of the file, and the rectangles of the blockages that are not skipped. -/
theorem c117_tracks (E : REnv) (vs : List RViaDef) (rs : List DefRec) (B : RBlock)
    (h : readDesign E vs rs = some B) :
    B.tracks.length = (tracksOf rs).length ∧
    (∀ (i : Nat) (t : Int × Bool × TrackPat) (d : DefTrack), B.tracks[i]? = some t → (tracksOf rs)[i]? = some d →
      TrackIs E t d) ∧
    ∀ l b, (∃ K ∈ B.blks, (l, b) ∈ K.rects) ↔ ∃ d ∈ blksOf rs, BlkOn E d l ∧
      ∃ r ∈ d.rects, b = Box.mk4 r.1 r.2.1 r.2.2.1 r.2.2.2 := by
  have hi := trkInv E vs rs B h
  exact ⟨hi.trk.1, hi.trk.2, hi.blk⟩

/-- No two terminals (of components or of the design) share an id, nor do two obstructions (of components or of the
design); a component has one of each for every terminal and obstruction of its cell. -/
theorem c117_ids (E : REnv) (vs : List RViaDef) (rs : List DefRec) (B : RBlock)
    (h : readDesign E vs rs = some B) :
    (B.insts.flatMap RInst.terms ++ B.pins.map TopPin.id).Nodup ∧
    (B.insts.flatMap RInst.obs ++ B.blks.map RBlk.id).Nodup ∧
    ∀ I ∈ B.insts, I.terms.length = I.cell.terms.length ∧ I.obs.length = I.cell.obs.length := by
  have hi := idInv E vs rs B h
  refine ⟨?_, ?_, hi.lens⟩
  · exact List.nodup_append.2 ⟨hi.cellT, hi.topT, hi.apartT⟩
  · exact List.nodup_append.2 ⟨hi.cellO, hi.blkO, hi.apartO⟩

/-- What is accepted: the file is read to its end exactly if every record fits what stands before it. -/
theorem c117_accepts (E : REnv) (h0 : E.layerNum "" = none) (vs : List RViaDef) (rs : List DefRec) :
    (∃ B, readDesign E vs rs = some B) ↔ ∀ pre r post, rs = pre ++ r :: post → Fits E pre r := by
  have := readRecs_iff E h0 { vias := vs } [] ⟨Pointwise.nil _, Pointwise.nil _, rfl, List.Pairwise.nil⟩ rs
  simpa [readDesign] using this

example : ReadEx.env.layerNum "" = none := by decide
example : (readDesign ReadEx.env [] ReadEx.file).map (fun B => (B.insts.map RInst.name, B.insts.flatMap RInst.terms,
    B.pins.map TopPin.id, B.insts.flatMap RInst.obs, B.blks.map RBlk.id)) =
    some (["u1", "u2"], [0, 1, 2, 3], [4], [0, 1], [2]) := by decide +kernel
example : (readDesign ReadEx.env [] ReadEx.file).map (fun B => (B.nets.map RNet.name, B.snets.map RNet.name,
    B.tracks.map (·.1))) = some (["a", "b"], ["vdd"], [4]) := by decide +kernel
/-- a component of an unknown cell, one of two components with one name, and a net with a USE the code does not know
end the program -/
example : (readDesign ReadEx.env [] [.comp ⟨"u1", "NAND", ⟨0, 0⟩, 0⟩]).isNone = true ∧
    (readDesign ReadEx.env [] [.comp ⟨"u1", "INV", ⟨0, 0⟩, 0⟩, .comp ⟨"u1", "INV", ⟨40, 0⟩, 0⟩]).isNone = true ∧
    (readDesign ReadEx.env [] [.net ⟨false, "rst", [], [], some "RESET"⟩]).isNone = true := by decide +kernel

end TR
